import Verif.Spec.EndToEndNoise
import Verif.Props.EndToEnd3
import Verif.Props.Noise
import Verif.Props.Offset

/-!
# C85: noise, end to end
-/

namespace Verif
open Spec

section basics

theorem assure2d_plus (e : Nat → Nat → ℝ) (v : KVar) : assure2d (v.plus e) = jitter (some e) (assure2d v) := by
  cases v with
  | one xs =>
    simp only [KVar.plus, assure2d, jitter, Arr.mk.injEq, true_and]
    refine List.ext_getElem (by simp) fun i h1 h2 => by simp
  | two a => rfl

theorem len_plus (e : Nat → Nat → ℝ) (v : KVar) : (v.plus e).len = v.len := by
  cases v <;> simp [KVar.plus, KVar.len]

theorem mapIdx_self {α : Type} (l : List α) : l.mapIdx (fun _ x => x) = l :=
  List.ext_getElem (by simp) fun i h1 h2 => by simp

theorem plus_zero (v : KVar) : v.plus (fun _ _ => 0) = v := by
  cases v with
  | one xs => simp [KVar.plus, mapIdx_self]
  | two a => simp [KVar.plus, mapIdx_self]

theorem jitter_noise2 (W : World) (v : ℝ) (i : Nat) (x : KVar) :
    jitter (W.noise2 v i) (assure2d x) = assure2d (x.plus (fun t j => v * W.draw i t j)) := by
  rw [assure2d_plus]
  by_cases h : v = 0
  · subst h
    have : x.plus (fun t j => 0 * W.draw i t j) = x := by simp only [zero_mul]; exact plus_zero x
    rw [noise2_zero, ← assure2d_plus, this]; rfl
  · simp [World.noise2, h]

theorem jitter_noiseSum (W : World) (v : ℝ) (i n : Nat) (x : KVar) :
    jitter (W.noiseSum v i n) (assure2d x) =
      assure2d (x.plus (fun t j => v * ((List.range n).map (fun r => W.draw (i + r) t j)).sum)) := by
  rw [assure2d_plus]
  by_cases h : v = 0
  · subst h
    have : x.plus (fun t j => 0 * ((List.range n).map (fun r => W.draw (i + r) t j)).sum) = x := by
      simp only [zero_mul]; exact plus_zero x
    rw [← assure2d_plus, this]; simp [World.noiseSum, jitter]
  · simp only [World.noiseSum, h, if_false]
    congr 2
    funext t j
    rw [← List.sum_map_mul_left]

theorem jitter1_noise1 (W : World) (v : ℝ) (i : Nat) (xs : List ℝ) :
    jitter1 (W.noise1 v i) xs = noisySeries W v i xs := by
  by_cases h : v = 0
  · subst h; simp [World.noise1, jitter1, noisySeries, mapIdx_self]
  · simp [World.noise1, h, jitter1, noisySeries]

theorem kwOr_set (kw : Kw) (k n : String) (v d : PyVal) : kwOr (kw.set k v) n d = if n = k then v else kwOr kw n d := by
  unfold kwOr Kw.set
  split_ifs <;> rfl

theorem only_set {l : List String} {kw : Kw} {k : String} (v : PyVal) (hk : k ∈ l) (h : Only l kw) : Only l (kw.set k v) := by
  intro n hn
  unfold Kw.set at hn
  split_ifs at hn with e
  · exact e ▸ hk
  · exact h n hn

/-- the call keeps its meaning when the noise level is replaced -/
theorem Call.set_noise {W : World} {k : Kind} {f : Fam} {a : PyName} {kw : Kw} {b : Base} (h : Call W k f a kw b) (v : PyVal)
    (hk : "noise_level" ∈ acceptedKw W.b0 ⟨k, f⟩) : Call W k f a (kw.set "noise_level" v) b :=
  ⟨h.name, only_set v hk h.accepted, by rw [kwOr_set]; simpa using h.base⟩

theorem Plain.set_noise {kw : Kw} (h : Plain kw) (v : PyVal) : Plain (kw.set "noise_level" v) :=
  ⟨by rw [kwOr_set]; simpa using h.offset, by rw [kwOr_set]; simpa using h.normalize⟩

end basics

section

theorem kmiInit_mapIdx (S : Nat → KVar → KVar) (hS : ∀ i v, (S i v).len = v.len) (data : List KVar) :
    (kmiInit data (some 0) false = .ok data ∧ kmiInit (data.mapIdx S) (some 0) false = .ok (data.mapIdx S)) ∨
    ∃ x, kmiInit data (some 0) false = .error x ∧ kmiInit (data.mapIdx S) (some 0) false = .error x := by
  have hall : (data.mapIdx S).all (fun v => decide (v.len = ((data.mapIdx S).headD (.one [])).len)) =
      data.all (fun v => decide (v.len = (data.headD (.one [])).len)) := by
    cases data with
    | nil => rfl
    | cons a l =>
      rw [Bool.eq_iff_iff]
      simp only [List.all_eq_true, decide_eq_true_eq, List.headD_cons, List.mapIdx_cons, hS]
      constructor
      · intro h v hv
        rcases List.mem_cons.1 hv with rfl | hv
        · simp
        · obtain ⟨i, hi, rfl⟩ := List.mem_iff_getElem.1 hv
          have := h (S (i + 1) l[i]) (List.mem_cons_of_mem _ (List.mem_mapIdx.2 ⟨i, hi, rfl⟩))
          rw [hS] at this
          exact decide_eq_true this
      · intro h v hv
        rcases List.mem_cons.1 hv with rfl | hv
        · rw [hS]
        · obtain ⟨i, hi, rfl⟩ := List.mem_mapIdx.1 hv
          rw [hS]
          exact of_decide_eq_true (h _ (List.mem_cons_of_mem _ (List.getElem_mem hi)))
  unfold kmiInit
  rw [hall]
  simp only [List.length_mapIdx]
  split_ifs <;> simp [bind, Except.bind, pure, Except.pure] at *

theorem expEntropy_arr_congr (val : ExpVal) {v w : KVar} (h : assure2d v = assure2d w) (k order : PyArg) (b : Base) :
    expEntropy val [.arr v] k order b = expEntropy val [.arr w] k order b := by
  unfold expEntropy expInit
  simp only [bind, Except.bind]
  cases order.posNumber with
  | none => rfl
  | some q => by_cases hk : k.posInt <;> simp [hk, h]

theorem len_of_assure2d {v w : KVar} (h : assure2d v = assure2d w) : v.len = w.len := by
  rw [← KVar.len_rows, ← KVar.len_rows, h]

theorem expEntropy_tup_congr (val : ExpVal) {vs ws : List KVar} (h : vs.map assure2d = ws.map assure2d) (k order : PyArg) (b : Base) :
    expEntropy val [.tup vs] k order b = expEntropy val [.tup ws] k order b := by
  have hl : vs.map KVar.len = ws.map KVar.len := by
    have := congrArg (List.map (fun a : Arr => a.rows.length)) h
    simpa [List.map_map, Function.comp_def, KVar.len_rows] using this
  have hall : vs.all (fun d => decide (d.len = (vs.headD (.one [])).len)) = ws.all (fun d => decide (d.len = (ws.headD (.one [])).len)) := by
    have e : ∀ us : List KVar, us.all (fun d => decide (d.len = (us.headD (.one [])).len)) =
        (us.map KVar.len).all (fun n => decide (n = (us.map KVar.len).headD 0)) := by
      intro us; cases us <;> simp [List.all_map, Function.comp_def]
    rw [e, e, hl]
  unfold expEntropy expInit
  simp only [hall]
  by_cases hc : ws.all (fun d => decide (d.len = (ws.headD (.one [])).len)) = true
  · simp only [hc, if_true, bind, Except.bind]
    cases order.posNumber with
    | none => rfl
    | some q => by_cases hk : k.posInt <;> simp [hk, h]
  · simp only [hc, bind, Except.bind]; rfl

theorem entropyMI_congr (val : ExpVal) {vs ws : List KVar} (h : vs.map assure2d = ws.map assure2d) (k order : PyArg) (b : Base) :
    entropyMI (fun a => expEntropy val a k order b) vs = entropyMI (fun a => expEntropy val a k order b) ws := by
  have hm : vs.mapM (fun v => expEntropy val [.arr v] k order b) = ws.mapM (fun v => expEntropy val [.arr v] k order b) := by
    have e : ∀ us : List KVar, us.mapM (fun v => expEntropy val [.arr v] k order b) =
        (us.map assure2d).mapM (fun a => expEntropy val [.arr (.two a)] k order b) := by
      intro us
      rw [List.mapM_map]
      refine congrArg (fun g => List.mapM g us) (funext fun v => ?_)
      exact expEntropy_arr_congr val (v := v) (w := .two (assure2d v)) rfl k order b
    rw [e, e, h]
  unfold entropyMI
  simp only [hm, expEntropy_tup_congr val h]

variable {W : World} {a : PyName} {kw : Kw} {b : Base} {cond : CondKw PyData}

theorem noisyData_map (v : ℝ) (data : List KVar) :
    (noisyData W v data).map assure2d = (data.map assure2d).mapIdx (fun i x => jitter (W.noise2 v i) x) := by
  refine List.ext_getElem (by simp [noisyData]) fun i h1 h2 => ?_
  simp [noisyData, jitter_noise2]

theorem noisyVar_noise2 (v : ℝ) (data : List KVar) :
    (data.mapIdx (fun i x => noisyVar (W.noise2 v i) x)).map assure2d = (noisyData W v data).map assure2d := by
  rw [noisyData_map]
  refine List.ext_getElem (by simp) fun i h1 h2 => ?_
  simp only [List.getElem_map, List.getElem_mapIdx]
  cases W.noise2 v i <;> rfl

theorem ksgMI_noise (v : ℝ) (data : List KVar) (cfg : KsgCfg) :
    ksgMI data (some 0) false cfg (W.noise2 v) b = ksgMI (noisyData W v data) (some 0) false cfg noNoise b := by
  unfold ksgMI ksgMILocal
  rcases kmiInit_mapIdx (fun i x => x.plus (fun t j => v * W.draw i t j)) (fun _ _ => len_plus _ _) data with ⟨h1, h2⟩ | ⟨x, h1, h2⟩
  · rw [h1, show kmiInit (noisyData W v data) (some 0) false = _ from h2]
    simp only [bind, Except.bind]
    rw [mapIdx_noNoise, ← noisyData_map]
    rfl
  · rw [h1, show kmiInit (noisyData W v data) (some 0) false = _ from h2]; rfl

theorem expMI_noise (val : ExpVal) (v : ℝ) (data : List KVar) (k order : PyArg) :
    expMI val data (some 0) false k order (W.noise2 v) b = expMI val (noisyData W v data) (some 0) false k order noNoise b := by
  unfold expMI
  rcases kmiInit_mapIdx (fun i x => x.plus (fun t j => v * W.draw i t j)) (fun _ _ => len_plus _ _) data with ⟨h1, h2⟩ | ⟨x, h1, h2⟩
  · rw [h1, show kmiInit (noisyData W v data) (some 0) false = _ from h2]
    simp only [bind, Except.bind]
    rw [mapIdx_noisyVar, entropyMI_congr val (noisyVar_noise2 v data)]
    rfl
  · rw [h1, show kmiInit (noisyData W v data) (some 0) false = _ from h2]; rfl

/-- **C85** Mutual information: `noise_level = v` is `noise_level = 0` for the data with `v` times the draws added; every entry of every
variable has its own draw. -/
theorem C85_mi (hcl : Call W .mi .metric a kw b) (hc : cond.isVal = false) (hp : Plain kw) (v : ℝ) (p : PNorm) (k : Nat) (i : Int)
    (hv : (kwOr kw "noise_level" (.num (1 / 10 ^ 10))).toNoise = some v) (h1 : kwOr kw "k" (.int 4) = .int k)
    (h2 : kwOr kw "ksg_id" (.int 1) = .int i) (h3 : (kwOr kw "minkowski_p" .inf).toPNorm = some p) (data : List KVar) (hd : 2 ≤ data.length) :
    imMI W (data.map .ofKVar) a cond kw =
      imMI W ((noisyData W v data).map .ofKVar) a cond (kw.set "noise_level" (.int 0)) := by
  have hcl' := hcl.set_noise (.int 0) (by simp [acceptedKw, ownKw, optionalKw])
  have hp' := hp.set_noise (.int 0)
  rw [e2e_mi_metric hc hcl.name (by simpa using hd) hcl.accepted (k := k) (by rw [h1]; simp [PyVal.toNat]) (i := i)
      (by rw [h2]; rfl) (v := v) hv (mp := p) h3 (nm := false) (by rw [hp.normalize]; rfl) (o := some 0)
      (by rw [hp.offset]; rfl) hcl.base (mapM_kvars data),
    e2e_mi_metric hc hcl'.name (by simpa [noisyData] using hd) hcl'.accepted (k := k) (by rw [kwOr_set]; simp [h1, PyVal.toNat]) (i := i)
      (by rw [kwOr_set]; simp [h2, PyVal.toInt]) (v := 0) (by rw [kwOr_set]; exact toNoise_zero) (mp := p) (by rw [kwOr_set]; exact h3)
      (nm := false) (by rw [hp'.normalize]; rfl) (o := some 0)
      (by rw [hp'.offset]; rfl) hcl'.base (mapM_kvars _), noise2_none]
  exact ksgMI_noise v data _

/-- **C85** The same for Rényi mutual information. -/
theorem C85_mi_renyi (hcl : Call W .mi .renyi a kw b) (hc : cond.isVal = false) (hp : Plain kw) (v : ℝ) (k order : PyArg)
    (hv : (kwOr kw "noise_level" (.num (1 / 10 ^ 8))).toNoise = some v) (h1 : (kwOr kw "k" (.int 4)).toArg = some k)
    (h2 : (kwOr kw "alpha" .none).toArg = some order) (data : List KVar) (hd : 2 ≤ data.length) :
    imMI W (data.map .ofKVar) a cond kw =
      imMI W ((noisyData W v data).map .ofKVar) a cond (kw.set "noise_level" (.int 0)) := by
  have hcl' := hcl.set_noise (.int 0) (by simp [acceptedKw, ownKw, optionalKw])
  have hp' := hp.set_noise (.int 0)
  rw [e2e_mi_renyi hc hcl.name (by simpa using hd) hcl.accepted h1 h2 hv (nm := false) (by rw [hp.normalize]; rfl) (o := some 0)
      (by rw [hp.offset]; rfl) hcl.base (mapM_kvars data),
    e2e_mi_renyi hc hcl'.name (by simpa [noisyData] using hd) hcl'.accepted (by rw [kwOr_set]; exact h1) (by rw [kwOr_set]; exact h2)
      (v := 0) (by rw [kwOr_set]; exact toNoise_zero) (nm := false) (by rw [hp'.normalize]; rfl) (o := some 0)
      (by rw [hp'.offset]; rfl) hcl'.base (mapM_kvars _), noise2_none]
  exact expMI_noise _ v data k order

/-- **C85** The same for Tsallis mutual information. -/
theorem C85_mi_tsallis (hcl : Call W .mi .tsallis a kw b) (hc : cond.isVal = false) (hp : Plain kw) (v : ℝ) (k order : PyArg)
    (hv : (kwOr kw "noise_level" (.num (1 / 10 ^ 8))).toNoise = some v) (h1 : (kwOr kw "k" (.int 4)).toArg = some k)
    (h2 : (kwOr kw "q" .none).toArg = some order) (data : List KVar) (hd : 2 ≤ data.length) :
    imMI W (data.map .ofKVar) a cond kw =
      imMI W ((noisyData W v data).map .ofKVar) a cond (kw.set "noise_level" (.int 0)) := by
  have hcl' := hcl.set_noise (.int 0) (by simp [acceptedKw, ownKw, optionalKw])
  have hp' := hp.set_noise (.int 0)
  rw [e2e_mi_tsallis hc hcl.name (by simpa using hd) hcl.accepted h1 h2 hv (nm := false) (by rw [hp.normalize]; rfl) (o := some 0)
      (by rw [hp.offset]; rfl) hcl.base (mapM_kvars data),
    e2e_mi_tsallis hc hcl'.name (by simpa [noisyData] using hd) hcl'.accepted (by rw [kwOr_set]; exact h1) (by rw [kwOr_set]; exact h2)
      (v := 0) (by rw [kwOr_set]; exact toNoise_zero) (nm := false) (by rw [hp'.normalize]; rfl) (o := some 0)
      (by rw [hp'.offset]; rfl) hcl'.base (mapM_kvars _), noise2_none]
  exact expMI_noise _ v data k order

theorem kcmiInit_mapIdx (S : Nat → KVar → KVar) (hS : ∀ i v, (S i v).len = v.len) (T : KVar → KVar) (hT : ∀ v, (T v).len = v.len)
    (data : List KVar) (z : KVar) :
    (kcmiInit data (some z) (some 0) false = .ok (data, z) ∧
      kcmiInit (data.mapIdx S) (some (T z)) (some 0) false = .ok (data.mapIdx S, T z)) ∨
    ∃ x, kcmiInit data (some z) (some 0) false = .error x ∧ kcmiInit (data.mapIdx S) (some (T z)) (some 0) false = .error x := by
  unfold kcmiInit
  match data with
  | [] => right; exact ⟨_, by simp; rfl, by simp⟩
  | [_] => right; exact ⟨_, by simp; rfl, by simp⟩
  | x :: y :: l =>
    simp only [List.mapIdx_cons, hS, hT]
    by_cases h : x.len ≠ y.len ∨ x.len ≠ z.len
    · right; exact ⟨.valueError, by simp [h], by simp [h]⟩
    · left; simp [h, pure, Except.pure]

theorem entropyCMI_congr (val : ExpVal) {vs ws : List KVar} (h : vs.map assure2d = ws.map assure2d) {y z : KVar}
    (hz : assure2d y = assure2d z) (k order : PyArg) (b : Base) :
    entropyCMI (fun a => expEntropy val a k order b) vs y = entropyCMI (fun a => expEntropy val a k order b) ws z := by
  have hm : vs.mapM (fun v => expEntropy val [.tup [v, y]] k order b) = ws.mapM (fun v => expEntropy val [.tup [v, z]] k order b) := by
    have e : ∀ (us : List KVar) (x : KVar), assure2d x = assure2d z → us.mapM (fun v => expEntropy val [.tup [v, x]] k order b) =
        (us.map assure2d).mapM (fun a => expEntropy val [.tup [.two a, z]] k order b) := by
      intro us x hx
      rw [List.mapM_map]
      refine congrArg (fun g => List.mapM g us) (funext fun v => ?_)
      exact expEntropy_tup_congr val (by simp [assure2d_two, hx]) k order b
    rw [e _ _ hz, e _ _ rfl, h]
  unfold entropyCMI
  simp only [hm, expEntropy_arr_congr val hz,
    expEntropy_tup_congr val (show (vs ++ [y]).map assure2d = (ws ++ [z]).map assure2d by simp [h, hz])]

theorem headD_len (data : List KVar) (hd : 2 ≤ data.length) (n : Nat) (hn : ∀ x ∈ data, x.len = n) : (data.map KVar.len).headD 0 = n := by
  match data with
  | x :: _ => simpa using hn x (by simp)

theorem ksgCMI_noise (v : ℝ) (data : List KVar) (z : KVar) (i n : Nat) (cfg : KsgCfg) :
    ksgCMI data (some z) (some 0) false cfg (W.noise2 v) (W.noiseSum v i n) b =
      ksgCMI (noisyData W v data) (some (noisyCondSum W v i n z)) (some 0) false cfg noNoise none b := by
  unfold ksgCMI ksgCMILocal
  rcases kcmiInit_mapIdx (fun i x => x.plus (fun t j => v * W.draw i t j)) (fun _ _ => len_plus _ _)
    (noisyCondSum W v i n) (fun _ => len_plus _ _) data z with ⟨h1, h2⟩ | ⟨x, h1, h2⟩
  · rw [h1, show kcmiInit (noisyData W v data) _ (some 0) false = _ from h2]
    simp only [bind, Except.bind]
    rw [mapIdx_noNoise, ← noisyData_map, jitter_noiseSum]
    rfl
  · rw [h1, show kcmiInit (noisyData W v data) _ (some 0) false = _ from h2]; rfl

theorem expCMI_noise (val : ExpVal) (v : ℝ) (data : List KVar) (z : KVar) (i : Nat) (k order : PyArg) :
    expCMI val data (some z) (some 0) false k order (W.noise2 v) (W.noise2 v i) b =
      expCMI val (noisyData W v data) (some (noisyCond W v i z)) (some 0) false k order noNoise none b := by
  unfold expCMI
  rcases kcmiInit_mapIdx (fun i x => x.plus (fun t j => v * W.draw i t j)) (fun _ _ => len_plus _ _)
    (noisyCond W v i) (fun _ => len_plus _ _) data z with ⟨h1, h2⟩ | ⟨x, h1, h2⟩
  · rw [h1, show kcmiInit (noisyData W v data) _ (some 0) false = _ from h2]
    simp only [bind, Except.bind]
    have hz : assure2d (noisyVar (W.noise2 v i) z) = assure2d (noisyCond W v i z) := by
      rw [noisyCond, ← jitter_noise2]
      cases W.noise2 v i <;> rfl
    rw [mapIdx_noisyVar, entropyCMI_congr val (noisyVar_noise2 v data) hz]
    rfl
  · rw [h1, show kcmiInit (noisyData W v data) _ (some 0) false = _ from h2]; rfl

/-- **C85** Nearest-neighbour conditional mutual information of samples of length `n`: the variables get one draw per entry, but the
condition gets the *sum of `n` draws* in every entry. -/
theorem C85_cmi (hcl : Call W .cmi .metric a kw b) (hp : Plain kw) (v : ℝ) (p : PNorm) (k : Nat) (i : Int)
    (hv : (kwOr kw "noise_level" (.num (1 / 10 ^ 10))).toNoise = some v) (h1 : kwOr kw "k" (.int 4) = .int k)
    (h2 : kwOr kw "ksg_id" (.int 1) = .int i) (h3 : (kwOr kw "minkowski_p" .inf).toPNorm = some p) (data : List KVar) (z : KVar)
    (hd : 2 ≤ data.length) (n : Nat) (hn : ∀ x ∈ data, x.len = n) :
    imCMI W (data.map .ofKVar) a (.val (.ofKVar z)) kw =
      imCMI W ((noisyData W v data).map .ofKVar) a (.val (.ofKVar (noisyCondSum W v data.length n z))) (kw.set "noise_level" (.int 0)) ∧
    imMI W (data.map .ofKVar) a (.val (.ofKVar z)) kw =
      imMI W ((noisyData W v data).map .ofKVar) a (.val (.ofKVar (noisyCondSum W v data.length n z))) (kw.set "noise_level" (.int 0)) := by
  have hcl' := hcl.set_noise (.int 0) (by simp [acceptedKw, ownKw, optionalKw])
  have hp' := hp.set_noise (.int 0)
  obtain ⟨e1, e2⟩ := e2e_cmi_metric hcl.name (by simpa using hd) hcl.accepted (k := k) (by rw [h1]; simp [PyVal.toNat]) (i := i)
      (by rw [h2]; rfl) (v := v) hv (mp := p) h3 (nm := false) (by rw [hp.normalize]; rfl) (o := some 0)
      (by rw [hp.offset]; rfl) hcl.base (mapM_kvars data) (toKVar_ofKVar z)
  obtain ⟨e1', e2'⟩ := e2e_cmi_metric hcl'.name (by simpa [noisyData] using hd) hcl'.accepted (k := k) (by rw [kwOr_set]; simp [h1, PyVal.toNat]) (i := i)
      (by rw [kwOr_set]; simp [h2, PyVal.toInt]) (v := 0) (by rw [kwOr_set]; exact toNoise_zero) (mp := p) (by rw [kwOr_set]; exact h3)
      (nm := false) (by rw [hp'.normalize]; rfl) (o := some 0)
      (by rw [hp'.offset]; rfl) hcl'.base (mapM_kvars (noisyData W v data)) (toKVar_ofKVar (noisyCondSum W v data.length n z))
  rw [e1, e2, e1', e2', headD_len data hd n hn, ksgCMI_noise, noise2_none, noiseSum_zero]
  exact ⟨rfl, rfl⟩

/-- **C85** Rényi conditional mutual information: variables and condition get one draw per entry. -/
theorem C85_cmi_renyi (hcl : Call W .cmi .renyi a kw b) (hp : Plain kw) (v : ℝ) (k order : PyArg)
    (hv : (kwOr kw "noise_level" (.num (1 / 10 ^ 8))).toNoise = some v) (h1 : (kwOr kw "k" (.int 4)).toArg = some k)
    (h2 : (kwOr kw "alpha" .none).toArg = some order) (data : List KVar) (z : KVar) (hd : 2 ≤ data.length) :
    imCMI W (data.map .ofKVar) a (.val (.ofKVar z)) kw =
      imCMI W ((noisyData W v data).map .ofKVar) a (.val (.ofKVar (noisyCond W v data.length z))) (kw.set "noise_level" (.int 0)) ∧
    imMI W (data.map .ofKVar) a (.val (.ofKVar z)) kw =
      imMI W ((noisyData W v data).map .ofKVar) a (.val (.ofKVar (noisyCond W v data.length z))) (kw.set "noise_level" (.int 0)) := by
  have hcl' := hcl.set_noise (.int 0) (by simp [acceptedKw, ownKw, optionalKw])
  have hp' := hp.set_noise (.int 0)
  obtain ⟨e1, e2⟩ := e2e_cmi_renyi hcl.name (by simpa using hd) hcl.accepted h1 h2 hv (nm := false) (by rw [hp.normalize]; rfl) (o := some 0)
      (by rw [hp.offset]; rfl) hcl.base (mapM_kvars data) (toKVar_ofKVar z)
  obtain ⟨e1', e2'⟩ := e2e_cmi_renyi hcl'.name (by simpa [noisyData] using hd) hcl'.accepted (by rw [kwOr_set]; exact h1) (by rw [kwOr_set]; exact h2)
      (v := 0) (by rw [kwOr_set]; exact toNoise_zero) (nm := false) (by rw [hp'.normalize]; rfl) (o := some 0)
      (by rw [hp'.offset]; rfl) hcl'.base (mapM_kvars (noisyData W v data)) (toKVar_ofKVar (noisyCond W v data.length z))
  rw [e1, e2, e1', e2', expCMI_noise, noise2_none]
  exact ⟨rfl, rfl⟩

/-- **C85** Tsallis conditional mutual information: variables and condition get one draw per entry. -/
theorem C85_cmi_tsallis (hcl : Call W .cmi .tsallis a kw b) (hp : Plain kw) (v : ℝ) (k order : PyArg)
    (hv : (kwOr kw "noise_level" (.num (1 / 10 ^ 8))).toNoise = some v) (h1 : (kwOr kw "k" (.int 4)).toArg = some k)
    (h2 : (kwOr kw "q" .none).toArg = some order) (data : List KVar) (z : KVar) (hd : 2 ≤ data.length) :
    imCMI W (data.map .ofKVar) a (.val (.ofKVar z)) kw =
      imCMI W ((noisyData W v data).map .ofKVar) a (.val (.ofKVar (noisyCond W v data.length z))) (kw.set "noise_level" (.int 0)) ∧
    imMI W (data.map .ofKVar) a (.val (.ofKVar z)) kw =
      imMI W ((noisyData W v data).map .ofKVar) a (.val (.ofKVar (noisyCond W v data.length z))) (kw.set "noise_level" (.int 0)) := by
  have hcl' := hcl.set_noise (.int 0) (by simp [acceptedKw, ownKw, optionalKw])
  have hp' := hp.set_noise (.int 0)
  obtain ⟨e1, e2⟩ := e2e_cmi_tsallis hcl.name (by simpa using hd) hcl.accepted h1 h2 hv (nm := false) (by rw [hp.normalize]; rfl) (o := some 0)
      (by rw [hp.offset]; rfl) hcl.base (mapM_kvars data) (toKVar_ofKVar z)
  obtain ⟨e1', e2'⟩ := e2e_cmi_tsallis hcl'.name (by simpa [noisyData] using hd) hcl'.accepted (by rw [kwOr_set]; exact h1) (by rw [kwOr_set]; exact h2)
      (v := 0) (by rw [kwOr_set]; exact toNoise_zero) (nm := false) (by rw [hp'.normalize]; rfl) (o := some 0)
      (by rw [hp'.offset]; rfl) hcl'.base (mapM_kvars (noisyData W v data)) (toKVar_ofKVar (noisyCond W v data.length z))
  rw [e1, e2, e1', e2', expCMI_noise, noise2_none]
  exact ⟨rfl, rfl⟩

/-- **C85** Nearest-neighbour transfer entropy: source and destination get one draw per entry. -/
theorem C85_te (hcl : Call W .te .metric a kw b) (hc : cond.isVal = false) (v : ℝ) (p : PNorm) (k : Nat) (i : Int)
    (hv : (kwOr kw "noise_level" (.num (1 / 10 ^ 8))).toNoise = some v) (h1 : kwOr kw "k" (.int 4) = .int k)
    (h2 : kwOr kw "ksg_id" (.int 1) = .int i) (h3 : (kwOr kw "minkowski_p" .inf).toPNorm = some p)
    (u : kwOr kw "prop_time" (.int 0) = .int 0) (o : kwOr kw "offset" .none = .none) (s l r : PyArg)
    (hs : (kwOr kw "step_size" (.int 1)).toArg = some s) (hl : (kwOr kw "src_hist_len" (.int 1)).toArg = some l)
    (hr : (kwOr kw "dest_hist_len" (.int 1)).toArg = some r)
    (x y : List ℝ) (hlen : x.length = y.length) :
    imTE W [.reals x, .reals y] a cond kw = imTE W [.reals (noisySeries W v 0 x), .reals (noisySeries W v 1 y)] a cond (kw.set "noise_level" (.int 0)) := by
  have hcl' := hcl.set_noise (.int 0) (by simp [acceptedKw, ownKw, optionalKw])
  rw [e2e_te_metric hc hcl.name hcl.accepted (k := k) (by rw [h1]; simp [PyVal.toNat]) (i := i) (by rw [h2]; rfl) (v := v) hv (mp := p) h3 (u := some (.int 0)) (o := none) (by rw [u]; rfl) hs hl hr (by rw [o]; rfl) hcl.base (dx := .reals x) (dy := .reals y) rfl rfl,
    e2e_te_metric hc hcl'.name hcl'.accepted (k := k) (by rw [kwOr_set]; simp [h1, PyVal.toNat]) (i := i) (by rw [kwOr_set]; simp [h2, PyVal.toInt]) (v := 0) (by rw [kwOr_set]; exact toNoise_zero) (mp := p) (by rw [kwOr_set]; exact h3) (u := some (.int 0)) (o := none) (by rw [kwOr_set]; simp [u, PyVal.toOptArg, PyVal.toArg]) (by rw [kwOr_set]; exact hs) (by rw [kwOr_set]; exact hl) (by rw [kwOr_set]; exact hr) (by rw [kwOr_set]; simp [o, PyVal.toOptArg]) hcl'.base (dx := .reals (noisySeries W v 0 x)) (dy := .reals (noisySeries W v 1 y)) rfl rfl, C63_noise x y hlen]
  simp only [jitter1_noise1, noise1_zero]

/-- **C85** Rényi transfer entropy: source and destination get one draw per entry. -/
theorem C85_te_renyi (hcl : Call W .te .renyi a kw b) (hc : cond.isVal = false) (v : ℝ) (k order : PyArg)
    (hv : (kwOr kw "noise_level" (.num (1 / 10 ^ 8))).toNoise = some v) (h1 : (kwOr kw "k" (.int 4)).toArg = some k)
    (h2 : (kwOr kw "alpha" .none).toArg = some order)
    (u : kwOr kw "prop_time" (.int 0) = .int 0) (o : kwOr kw "offset" .none = .none) (s l r : PyArg)
    (hs : (kwOr kw "step_size" (.int 1)).toArg = some s) (hl : (kwOr kw "src_hist_len" (.int 1)).toArg = some l)
    (hr : (kwOr kw "dest_hist_len" (.int 1)).toArg = some r)
    (x y : List ℝ) (hlen : x.length = y.length) :
    imTE W [.reals x, .reals y] a cond kw = imTE W [.reals (noisySeries W v 0 x), .reals (noisySeries W v 1 y)] a cond (kw.set "noise_level" (.int 0)) := by
  have hcl' := hcl.set_noise (.int 0) (by simp [acceptedKw, ownKw, optionalKw])
  rw [e2e_te_renyi hc hcl.name hcl.accepted h1 h2 hv (u := some (.int 0)) (o := none) (by rw [u]; rfl) hs hl hr (by rw [o]; rfl) hcl.base (dx := .reals x) (dy := .reals y) rfl rfl,
    e2e_te_renyi hc hcl'.name hcl'.accepted (by rw [kwOr_set]; exact h1) (by rw [kwOr_set]; exact h2) (v := 0) (by rw [kwOr_set]; exact toNoise_zero) (u := some (.int 0)) (o := none) (by rw [kwOr_set]; simp [u, PyVal.toOptArg, PyVal.toArg]) (by rw [kwOr_set]; exact hs) (by rw [kwOr_set]; exact hl) (by rw [kwOr_set]; exact hr) (by rw [kwOr_set]; simp [o, PyVal.toOptArg]) hcl'.base (dx := .reals (noisySeries W v 0 x)) (dy := .reals (noisySeries W v 1 y)) rfl rfl, C65_te_noise _ x y hlen]
  simp only [jitter1_noise1, noise1_zero]

/-- **C85** Tsallis transfer entropy: source and destination get one draw per entry. -/
theorem C85_te_tsallis (hcl : Call W .te .tsallis a kw b) (hc : cond.isVal = false) (v : ℝ) (k order : PyArg)
    (hv : (kwOr kw "noise_level" (.num (1 / 10 ^ 8))).toNoise = some v) (h1 : (kwOr kw "k" (.int 4)).toArg = some k)
    (h2 : (kwOr kw "q" .none).toArg = some order)
    (u : kwOr kw "prop_time" (.int 0) = .int 0) (o : kwOr kw "offset" .none = .none) (s l r : PyArg)
    (hs : (kwOr kw "step_size" (.int 1)).toArg = some s) (hl : (kwOr kw "src_hist_len" (.int 1)).toArg = some l)
    (hr : (kwOr kw "dest_hist_len" (.int 1)).toArg = some r)
    (x y : List ℝ) (hlen : x.length = y.length) :
    imTE W [.reals x, .reals y] a cond kw = imTE W [.reals (noisySeries W v 0 x), .reals (noisySeries W v 1 y)] a cond (kw.set "noise_level" (.int 0)) := by
  have hcl' := hcl.set_noise (.int 0) (by simp [acceptedKw, ownKw, optionalKw])
  rw [e2e_te_tsallis hc hcl.name hcl.accepted h1 h2 hv (u := some (.int 0)) (o := none) (by rw [u]; rfl) hs hl hr (by rw [o]; rfl) hcl.base (dx := .reals x) (dy := .reals y) rfl rfl,
    e2e_te_tsallis hc hcl'.name hcl'.accepted (by rw [kwOr_set]; exact h1) (by rw [kwOr_set]; exact h2) (v := 0) (by rw [kwOr_set]; exact toNoise_zero) (u := some (.int 0)) (o := none) (by rw [kwOr_set]; simp [u, PyVal.toOptArg, PyVal.toArg]) (by rw [kwOr_set]; exact hs) (by rw [kwOr_set]; exact hl) (by rw [kwOr_set]; exact hr) (by rw [kwOr_set]; simp [o, PyVal.toOptArg]) hcl'.base (dx := .reals (noisySeries W v 0 x)) (dy := .reals (noisySeries W v 1 y)) rfl rfl, C65_te_noise _ x y hlen]
  simp only [jitter1_noise1, noise1_zero]

/-- **C85** Nearest-neighbour conditional transfer entropy: source and destination, and the condition, get one draw per entry. -/
theorem C85_cte (hcl : Call W .cte .metric a kw b) (v : ℝ) (p : PNorm) (k : Nat) (i : Int)
    (hv : (kwOr kw "noise_level" (.num (1 / 10 ^ 8))).toNoise = some v) (h1 : kwOr kw "k" (.int 4) = .int k)
    (h2 : kwOr kw "ksg_id" (.int 1) = .int i) (h3 : (kwOr kw "minkowski_p" .inf).toPNorm = some p)
    (u : kwOr kw "prop_time" (.int 0) = .int 0) (o : kwOr kw "offset" .none = .none) (s l r : PyArg)
    (hs : (kwOr kw "step_size" (.int 1)).toArg = some s) (hl : (kwOr kw "src_hist_len" (.int 1)).toArg = some l)
    (hr : (kwOr kw "dest_hist_len" (.int 1)).toArg = some r) (q : PyArg) (hq : (kwOr kw "cond_hist_len" (.int 1)).toArg = some q)
    (x y z : List ℝ) (hlen : x.length = y.length) (hlen2 : z.length = y.length) :
    imCTE W [.reals x, .reals y] a (.val (.reals z)) kw =
      imCTE W [.reals (noisySeries W v 0 x), .reals (noisySeries W v 1 y)] a (.val (.reals (noisySeries W v 2 z))) (kw.set "noise_level" (.int 0)) ∧
    imTE W [.reals x, .reals y] a (.val (.reals z)) kw =
      imTE W [.reals (noisySeries W v 0 x), .reals (noisySeries W v 1 y)] a (.val (.reals (noisySeries W v 2 z))) (kw.set "noise_level" (.int 0)) := by
  have hcl' := hcl.set_noise (.int 0) (by simp [acceptedKw, ownKw, optionalKw])
  obtain ⟨e1, e2⟩ := e2e_cte_metric hcl.name hcl.accepted (k := k) (by rw [h1]; simp [PyVal.toNat]) (i := i) (by rw [h2]; rfl) (v := v) hv (mp := p) h3 (u := some (.int 0)) (o := none) (by rw [u]; rfl) hs hl hr hq (by rw [o]; rfl) hcl.base (dx := .reals x) (dy := .reals y) rfl rfl (dz := .reals z) rfl
  obtain ⟨e1', e2'⟩ := e2e_cte_metric hcl'.name hcl'.accepted (k := k) (by rw [kwOr_set]; simp [h1, PyVal.toNat]) (i := i) (by rw [kwOr_set]; simp [h2, PyVal.toInt]) (v := 0) (by rw [kwOr_set]; exact toNoise_zero) (mp := p) (by rw [kwOr_set]; exact h3) (u := some (.int 0)) (o := none) (by rw [kwOr_set]; simp [u, PyVal.toOptArg, PyVal.toArg]) (by rw [kwOr_set]; exact hs) (by rw [kwOr_set]; exact hl) (by rw [kwOr_set]; exact hr) (by rw [kwOr_set]; exact hq) (by rw [kwOr_set]; simp [o, PyVal.toOptArg]) hcl'.base (dx := .reals (noisySeries W v 0 x)) (dy := .reals (noisySeries W v 1 y)) rfl rfl (dz := .reals (noisySeries W v 2 z)) rfl
  rw [e1, e2, e1', e2', C63_cte_noise x y z hlen hlen2]
  simp only [jitter1_noise1, noise1_zero, and_self]

/-- **C85** Rényi conditional transfer entropy: source and destination, and the condition, get one draw per entry. -/
theorem C85_cte_renyi (hcl : Call W .cte .renyi a kw b) (v : ℝ) (k order : PyArg)
    (hv : (kwOr kw "noise_level" (.num (1 / 10 ^ 8))).toNoise = some v) (h1 : (kwOr kw "k" (.int 4)).toArg = some k)
    (h2 : (kwOr kw "alpha" .none).toArg = some order)
    (u : kwOr kw "prop_time" (.int 0) = .int 0) (o : kwOr kw "offset" .none = .none) (s l r : PyArg)
    (hs : (kwOr kw "step_size" (.int 1)).toArg = some s) (hl : (kwOr kw "src_hist_len" (.int 1)).toArg = some l)
    (hr : (kwOr kw "dest_hist_len" (.int 1)).toArg = some r) (q : PyArg) (hq : (kwOr kw "cond_hist_len" (.int 1)).toArg = some q)
    (x y z : List ℝ) (hlen : x.length = y.length) (hlen2 : z.length = y.length) :
    imCTE W [.reals x, .reals y] a (.val (.reals z)) kw =
      imCTE W [.reals (noisySeries W v 0 x), .reals (noisySeries W v 1 y)] a (.val (.reals (noisySeries W v 2 z))) (kw.set "noise_level" (.int 0)) ∧
    imTE W [.reals x, .reals y] a (.val (.reals z)) kw =
      imTE W [.reals (noisySeries W v 0 x), .reals (noisySeries W v 1 y)] a (.val (.reals (noisySeries W v 2 z))) (kw.set "noise_level" (.int 0)) := by
  have hcl' := hcl.set_noise (.int 0) (by simp [acceptedKw, ownKw, optionalKw])
  obtain ⟨e1, e2⟩ := e2e_cte_renyi hcl.name hcl.accepted h1 h2 hv (u := some (.int 0)) (o := none) (by rw [u]; rfl) hs hl hr hq (by rw [o]; rfl) hcl.base (dx := .reals x) (dy := .reals y) rfl rfl (dz := .reals z) rfl
  obtain ⟨e1', e2'⟩ := e2e_cte_renyi hcl'.name hcl'.accepted (by rw [kwOr_set]; exact h1) (by rw [kwOr_set]; exact h2) (v := 0) (by rw [kwOr_set]; exact toNoise_zero) (u := some (.int 0)) (o := none) (by rw [kwOr_set]; simp [u, PyVal.toOptArg, PyVal.toArg]) (by rw [kwOr_set]; exact hs) (by rw [kwOr_set]; exact hl) (by rw [kwOr_set]; exact hr) (by rw [kwOr_set]; exact hq) (by rw [kwOr_set]; simp [o, PyVal.toOptArg]) hcl'.base (dx := .reals (noisySeries W v 0 x)) (dy := .reals (noisySeries W v 1 y)) rfl rfl (dz := .reals (noisySeries W v 2 z)) rfl
  rw [e1, e2, e1', e2', C65_cte_noise _ x y z hlen hlen2]
  simp only [jitter1_noise1, noise1_zero, and_self]

/-- **C85** Tsallis conditional transfer entropy: source and destination, and the condition, get one draw per entry. -/
theorem C85_cte_tsallis (hcl : Call W .cte .tsallis a kw b) (v : ℝ) (k order : PyArg)
    (hv : (kwOr kw "noise_level" (.num (1 / 10 ^ 8))).toNoise = some v) (h1 : (kwOr kw "k" (.int 4)).toArg = some k)
    (h2 : (kwOr kw "q" .none).toArg = some order)
    (u : kwOr kw "prop_time" (.int 0) = .int 0) (o : kwOr kw "offset" .none = .none) (s l r : PyArg)
    (hs : (kwOr kw "step_size" (.int 1)).toArg = some s) (hl : (kwOr kw "src_hist_len" (.int 1)).toArg = some l)
    (hr : (kwOr kw "dest_hist_len" (.int 1)).toArg = some r) (q : PyArg) (hq : (kwOr kw "cond_hist_len" (.int 1)).toArg = some q)
    (x y z : List ℝ) (hlen : x.length = y.length) (hlen2 : z.length = y.length) :
    imCTE W [.reals x, .reals y] a (.val (.reals z)) kw =
      imCTE W [.reals (noisySeries W v 0 x), .reals (noisySeries W v 1 y)] a (.val (.reals (noisySeries W v 2 z))) (kw.set "noise_level" (.int 0)) ∧
    imTE W [.reals x, .reals y] a (.val (.reals z)) kw =
      imTE W [.reals (noisySeries W v 0 x), .reals (noisySeries W v 1 y)] a (.val (.reals (noisySeries W v 2 z))) (kw.set "noise_level" (.int 0)) := by
  have hcl' := hcl.set_noise (.int 0) (by simp [acceptedKw, ownKw, optionalKw])
  obtain ⟨e1, e2⟩ := e2e_cte_tsallis hcl.name hcl.accepted h1 h2 hv (u := some (.int 0)) (o := none) (by rw [u]; rfl) hs hl hr hq (by rw [o]; rfl) hcl.base (dx := .reals x) (dy := .reals y) rfl rfl (dz := .reals z) rfl
  obtain ⟨e1', e2'⟩ := e2e_cte_tsallis hcl'.name hcl'.accepted (by rw [kwOr_set]; exact h1) (by rw [kwOr_set]; exact h2) (v := 0) (by rw [kwOr_set]; exact toNoise_zero) (u := some (.int 0)) (o := none) (by rw [kwOr_set]; simp [u, PyVal.toOptArg, PyVal.toArg]) (by rw [kwOr_set]; exact hs) (by rw [kwOr_set]; exact hl) (by rw [kwOr_set]; exact hr) (by rw [kwOr_set]; exact hq) (by rw [kwOr_set]; simp [o, PyVal.toOptArg]) hcl'.base (dx := .reals (noisySeries W v 0 x)) (dy := .reals (noisySeries W v 1 y)) rfl rfl (dz := .reals (noisySeries W v 2 z)) rfl
  rw [e1, e2, e1', e2', C65_cte_noise _ x y z hlen hlen2]
  simp only [jitter1_noise1, noise1_zero, and_self]

theorem klEntropy_noise1 (v : ℝ) (x : KVar) (cfg : KlCfg) (e : Option (Nat → Nat → ℝ)) :
    klEntropy [.arr x] cfg (W.noise2 v 0) e b = klEntropy [.arr (noisyCond W v 0 x)] cfg none none b := by
  have h : (klInit [.arr x] cfg = .ok [.arr x] ∧ klInit [.arr (noisyCond W v 0 x)] cfg = .ok [.arr (noisyCond W v 0 x)]) ∨
      ∃ ex, klInit [.arr x] cfg = .error ex ∧ klInit [.arr (noisyCond W v 0 x)] cfg = .error ex := by
    simp only [klInit, bind, Except.bind]
    split_ifs <;> simp
  rcases h with ⟨h1, h2⟩ | ⟨ex, h1, h2⟩
  · simp only [klEntropy, klEntropyLocal, h1, h2, bind, Except.bind]
    rw [jitter_noise2]; rfl
  · simp only [klEntropy, h1, h2, bind, Except.bind]

theorem klEntropy_noise2 (v : ℝ) (x y : KVar) (cfg : KlCfg) :
    klEntropy [.arr x, .arr y] cfg (W.noise2 v 0) (W.noise2 v 1) b =
      klEntropy [.arr (noisyCond W v 0 x), .arr (noisyCond W v 1 y)] cfg none none b := by
  rcases klInit_pair x y (noisyCond W v 0 x) (noisyCond W v 1 y) cfg with ⟨h1, h2⟩ | ⟨ex, h1, h2⟩
  · simp only [klEntropy, h1, h2, bind, Except.bind]
    rw [jitter_noise2, jitter_noise2]; rfl
  · simp only [klEntropy, h1, h2, bind, Except.bind]

/-- **C85** Kozachenko–Leonenko entropy of one variable: one draw per entry. -/
theorem C85_entropy (hcl : Call W .h .metric a kw b) (v : ℝ) (h0 : 0 ≤ v) (p : PNorm) (k : PyArg) (i : Int)
    (hv : (kwOr kw "noise_level" (.num (1 / 10 ^ 10))).toNum = some v) (h1 : (kwOr kw "k" (.int 4)).toArg = some k)
    (h2 : (kwOr kw "ksg_id" (.int 1)).toInt = some i) (h3 : (kwOr kw "minkowski_p" .inf).toPNorm = some p) (x : KVar) :
    imEntropy W [.ofKVar x] a .absent kw =
      imEntropy W [.ofKVar (noisyCond W v 0 x)] a .absent (kw.set "noise_level" (.int 0)) := by
  have hcl' := hcl.set_noise (.int 0) (by simp [acceptedKw, ownKw, optionalKw])
  rw [(e2e_h_metric hcl.name hcl.accepted h1 h2 hv h3 hcl.base).1,
    (e2e_h_metric hcl'.name hcl'.accepted (k := k) (by rw [kwOr_set]; exact h1) (i := i) (by rw [kwOr_set]; exact h2) (v := 0)
      (by rw [kwOr_set]; simp [PyVal.toNum]) (mp := p) (by rw [kwOr_set]; exact h3) hcl'.base).1]
  simp only [List.map_cons, List.map_nil, toKArg_ofKVar, noise2_zero, lt_irrefl, not_lt.2 h0, decide_false]
  exact klEntropy_noise1 v x _ _

/-- **C85** Kozachenko–Leonenko cross-entropy: each sample its own draws. -/
theorem C85_cross_entropy (hcl : Call W .h .metric a kw b) (v : ℝ) (h0 : 0 ≤ v) (p : PNorm) (k : PyArg) (i : Int)
    (hv : (kwOr kw "noise_level" (.num (1 / 10 ^ 10))).toNum = some v) (h1 : (kwOr kw "k" (.int 4)).toArg = some k)
    (h2 : (kwOr kw "ksg_id" (.int 1)).toInt = some i) (h3 : (kwOr kw "minkowski_p" .inf).toPNorm = some p) (x y : KVar) :
    imCrossEntropy W [.ofKVar x, .ofKVar y] a .absent kw =
      imCrossEntropy W [.ofKVar (noisyCond W v 0 x), .ofKVar (noisyCond W v 1 y)] a .absent (kw.set "noise_level" (.int 0)) := by
  have hcl' := hcl.set_noise (.int 0) (by simp [acceptedKw, ownKw, optionalKw])
  rw [(e2e_h_metric hcl.name hcl.accepted h1 h2 hv h3 hcl.base).2 (by simp),
    (e2e_h_metric hcl'.name hcl'.accepted (k := k) (by rw [kwOr_set]; exact h1) (i := i) (by rw [kwOr_set]; exact h2) (v := 0)
      (by rw [kwOr_set]; simp [PyVal.toNum]) (mp := p) (by rw [kwOr_set]; exact h3) hcl'.base).2 (by simp)]
  simp only [List.map_cons, List.map_nil, toKArg_ofKVar, noise2_zero, lt_irrefl, not_lt.2 h0, decide_false]
  exact klEntropy_noise2 v x y _

/-- **C85** Only Kozachenko–Leonenko entropy checks the sign itself: a negative level is a `ValueError`. -/
theorem C85_entropy_negative (hcl : Call W .h .metric a kw b) (v : ℝ) (h0 : v < 0) (p : PNorm) (k : PyArg) (i : Int)
    (hv : (kwOr kw "noise_level" (.num (1 / 10 ^ 10))).toNum = some v) (h1 : (kwOr kw "k" (.int 4)).toArg = some k)
    (h2 : (kwOr kw "ksg_id" (.int 1)).toInt = some i) (h3 : (kwOr kw "minkowski_p" .inf).toPNorm = some p) (data : List PyData) :
    imEntropy W data a .absent kw = .error .valueError := by
  rw [(e2e_h_metric hcl.name hcl.accepted h1 h2 hv h3 hcl.base).1]
  simp only [klEntropy, klInit, h0, decide_true, if_true, bind, Except.bind]
  by_cases hk : k.posInt = false <;> simp [hk]

end

end Verif
