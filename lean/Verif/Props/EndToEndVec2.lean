import Verif.Props.EndToEndVec

/-!
# C90: two-dimensional arrays and joint conditions through the public functions (conditional transfer entropy)

`Condition` (`Spec/EndToEndVec.lean`): the condition is an array of vectors, or a tuple of series taken together.
-/

namespace Verif

open Spec

variable {W : World} {a : PyName} {kw : Kw} {b : Base} {cond : CondKw PyData} {l k s c : Nat}

/-- a condition given as an array of vectors -/
theorem condition_array {d : PyData} {w : Nat} {z : List (List Int)} (h : IntVectors d w z) {source dest : List (List Int)} {m n : Nat}
    (hx : VecShape m source) (hy : VecShape n dest) (hov : dest.length < 2 ^ 32) (hb : b.Valid) :
    ∃ cs, d.toCondSeries = some cs ∧ ∀ (p : TEParams) (ch : PyArg) (pt off : Option PyArg) (mm : Bool),
      discreteCTEOf source dest cs p ch pt off b mm = discreteCTEVec source dest (some z) p ch pt off b mm := by
  obtain ⟨-, hz⟩ := intVectors_rows h
  cases h with
  | one xs => exact ⟨.one xs, rfl, fun p ch pt off mm => rfl⟩
  | two w rows hw h =>
    exact ⟨.rows true z, rfl, fun p ch pt off mm =>
      (C75_condition_array_list_labels source dest z m n w hx hy hz hov _ (vec_code_inj z) p ch pt off b hb mm).1⟩

/-- a condition for the plug-in estimator: an array of vectors or a tuple of series -/
theorem condition_plain {d : PyData} {z : List (List Int)} (h : Condition d z) {source dest : List (List Int)} {m n : Nat}
    (hx : VecShape m source) (hy : VecShape n dest) (hov : dest.length < 2 ^ 32) (hb : b.Valid) :
    (∃ w, VecShape w z) ∧ ∃ cs, d.toCondSeries = some cs ∧ ∀ (p : TEParams) (ch : PyArg) (pt off : Option PyArg),
      discreteCTEOf source dest cs p ch pt off b = discreteCTEVec source dest (some z) p ch pt off b := by
  cases h with
  | array h =>
    obtain ⟨cs, e1, e2⟩ := condition_array h hx hy hov hb
    exact ⟨⟨_, (intVectors_rows h).2⟩, cs, e1, fun p ch pt off => e2 p ch pt off false⟩
  | tuple N cols hne hl =>
    exact ⟨⟨_, specRows_shape N hne⟩, .tup cols, rfl, fun p ch pt off => C75_condition_tuple source dest cols m n N hx hy hne hl hov p ch pt off b hb⟩

/-- the value of the plug-in and Miller–Madow conditional transfer entropy of vector-valued series -/
theorem vec_cte_combo (source dest z : List (List Int)) (hs : 0 < s) (hl : 0 < l) (hk : 0 < k) (hc : 0 < c)
    (hm : max (max k l) c * s < source.length) (hlen : source.length = dest.length) (hlen2 : z.length = dest.length)
    (hov : dest.length < 2 ^ 32) {m n o : Nat} (hx : VecShape m source) (hy : VecShape n dest) (hz : VecShape o z) (hb : b.Valid) (mm : Bool) :
    let M := max (max k l) c
    let F := futRows dest dest.length M s
    let G := histRows source dest.length M s l
    let DZ := (histRows dest dest.length M s k).zip (histRows z dest.length M s c)
    discreteCTEVec source dest (some z) (teParams l k s) (.int c) (some (.int 0)) none b mm =
      .ok ((hSpec mm (F.zip DZ) + hSpec mm (G.zip DZ) - hSpec mm (F.zip (G.zip DZ)) - hSpec mm DZ) / b.ln) := by
  intro M F G DZ
  rw [vec_cte_value source dest z l k c s hs hl hk hc hm hlen hlen2 hov hx hy hz hb mm]
  simp only [F, G, DZ, M, histRows, futRows, zip_map_map]

/-- **C90** `im.conditional_transfer_entropy(source, dest, cond=z, …)` of integer vectors, with a condition of vectors or a tuple of
series: `I(future; source history | dest history, condition history)`. -/
theorem C90_cte (h : Call W .cte .discrete a kw b) (hb : b.Valid) (hh : History kw l k s)
    (hcd : kwOr kw "cond_hist_len" (.int 1) = .int c) (hs : 0 < s) (hl : 0 < l) (hk : 0 < k) (hc : 0 < c)
    {dx dy dz : PyData} {source dest z : List (List Int)} {wx wy : Nat} (hx : IntVectors dx wx source)
    (hy : IntVectors dy wy dest) (hz : Condition dz z)
    (hm : max (max k l) c * s < source.length) (hlen : source.length = dest.length) (hlen2 : z.length = dest.length) (hov : dest.length < 2 ^ 32) :
    let M := max (max k l) c
    CteIs W.vec dx dy a dz kw (.ok (Spec.cmi (futRows dest dest.length M s) (histRows source dest.length M s l)
        ((histRows dest dest.length M s k).zip (histRows z dest.length M s c)) / b.ln)) := by
  intro M
  obtain ⟨ex, sx⟩ := intVectors_rows hx
  obtain ⟨ey, sy⟩ := intVectors_rows hy
  obtain ⟨⟨wz, sz⟩, cs, ez, ec⟩ := condition_plain hz sx sy hov hb
  have e := e2e_vcte_discrete h.name h.accepted hh.u hh.st hh.sh hh.dh (condArg hcd) hh.o h.base ex ey ez
  rw [ec, show ({ srcHist := .int l, destHist := .int k, step := .int s } : TEParams) = teParams l k s from rfl,
    vec_cte_combo source dest z hs hl hk hc hm hlen hlen2 hov sx sy sz hb false] at e
  unfold CteIs
  rw [cmi_eq_entropies _ _ _ (by simp [futRows, histRows]) (by simp [histRows])]
  simp only [hSpec, Bool.false_eq_true, if_false] at e
  exact e

/-- **C90** Miller–Madow (the condition an array of vectors). -/
theorem C90_cte_miller_madow (h : Call W .cte .millerMadow a kw b) (hb : b.Valid) (hh : History kw l k s)
    (hcd : kwOr kw "cond_hist_len" (.int 1) = .int c) (hs : 0 < s) (hl : 0 < l) (hk : 0 < k) (hc : 0 < c)
    {dx dy dz : PyData} {source dest z : List (List Int)} {wx wy : Nat} (hx : IntVectors dx wx source)
    (hy : IntVectors dy wy dest) {wz : Nat} (hz : IntVectors dz wz z)
    (hm : max (max k l) c * s < source.length) (hlen : source.length = dest.length) (hlen2 : z.length = dest.length) (hov : dest.length < 2 ^ 32) :
    let M := max (max k l) c
    let F := futRows dest dest.length M s
    let G := histRows source dest.length M s l
    let DZ := (histRows dest dest.length M s k).zip (histRows z dest.length M s c)
    CteIs W.vec dx dy a dz kw
      (.ok ((millerMadow (F.zip DZ) + millerMadow (G.zip DZ) - millerMadow (F.zip (G.zip DZ)) - millerMadow DZ) / b.ln)) := by
  intro M F G DZ
  obtain ⟨ex, sx⟩ := intVectors_rows hx
  obtain ⟨ey, sy⟩ := intVectors_rows hy
  obtain ⟨cs, ez, ec⟩ := condition_array hz sx sy hov hb
  have e := e2e_vcte_millerMadow h.name h.accepted hh.u hh.st hh.sh hh.dh (condArg hcd) hh.o h.base ex ey ez
  rw [ec, show ({ srcHist := .int l, destHist := .int k, step := .int s } : TEParams) = teParams l k s from rfl,
    vec_cte_combo source dest z hs hl hk hc hm hlen hlen2 hov sx sy (intVectors_rows hz).2 hb true] at e
  simp only [hSpec, if_true] at e
  exact e

/-- **C90** the six parameter-free bias-corrected estimators. -/
theorem C90_cte_bias {f : Fam} {m : Method} (hf : FamMethod f m) (h : Call W .cte f a kw b) (hb : b.Valid)
    (hh : History kw l k s)
    (hcd : kwOr kw "cond_hist_len" (.int 1) = .int c) (hs : 0 < s) (hl : 0 < l) (hk : 0 < k) (hc : 0 < c)
    {dx dy dz : PyData} {source dest z : List (List Int)} {wx wy : Nat} (hx : IntVectors dx wx source)
    (hy : IntVectors dy wy dest) {wz : Nat} (hz : IntVectors dz wz z)
    (hm : max (max k l) c * s < source.length) (hlen : source.length = dest.length) (hlen2 : z.length = dest.length) :
    let M := max (max k l) c
    let F := futRows dest dest.length M s
    let G := histRows source dest.length M s l
    let DZ := (histRows dest dest.length M s k).zip (histRows z dest.length M s c)
    CteIs W.vec dx dy a dz kw
      (.ok ((m.value (F.zip DZ) + m.value (G.zip DZ) - m.value (F.zip (G.zip DZ)) - m.value DZ) / b.ln)) := by
  intro M F G DZ
  obtain ⟨ex, sx⟩ := intVectors_rows hx
  obtain ⟨ey, sy⟩ := intVectors_rows hy
  obtain ⟨ez, sz⟩ := intVectors_rows hz
  have key : ∀ (cl : BiasClass) (m : Method), cl.Means m → m.Defined (F.zip (G.zip DZ)) →
      biasCTEVec cl source dest (some z) (teParams l k s) (.int c) (some (.int 0)) none b =
      .ok ((m.value (F.zip DZ) + m.value (G.zip DZ) - m.value (F.zip (G.zip DZ)) - m.value DZ) / b.ln) := fun cl m hcm hd =>
    (C72_bias_cte cl m hcm source dest z l k c s hs hl hk hc hm hlen hlen2 wx wy wz sx sy sz b hb).1 hd
  unfold CteIs
  cases hf with
  | grassberger =>
    rw [← key _ _ .grassberger trivial]
    exact e2e_vcte_grassberger h.name h.accepted hh.u hh.st hh.sh hh.dh (condArg hcd) hh.o h.base ex ey ez
  | chaoShen =>
    rw [← key _ _ .chaoShen trivial]
    exact e2e_vcte_chaoShen h.name h.accepted hh.u hh.st hh.sh hh.dh (condArg hcd) hh.o h.base ex ey ez
  | chaoWangJost =>
    rw [← key _ _ .chaoWangJost trivial]
    exact e2e_vcte_chaoWangJost h.name h.accepted hh.u hh.st hh.sh hh.dh (condArg hcd) hh.o h.base ex ey ez
  | shrink =>
    rw [← key _ _ .shrink trivial]
    exact e2e_vcte_shrink h.name h.accepted hh.u hh.st hh.sh hh.dh (condArg hcd) hh.o h.base ex ey ez
  | zhang =>
    rw [← key _ _ .zhang trivial]
    exact e2e_vcte_zhang h.name h.accepted hh.u hh.st hh.sh hh.dh (condArg hcd) hh.o h.base ex ey ez
  | bonachela =>
    rw [← key _ _ .bonachela trivial]
    exact e2e_vcte_bonachela h.name h.accepted hh.u hh.st hh.sh hh.dh (condArg hcd) hh.o h.base ex ey ez

/-- **C90** the Bayesian estimator. -/
theorem C90_cte_bayes (al : AlphaArg) (K : Option PyArg) {m : Method} (hme : (BiasClass.bayes al K).Means m)
    (h : Call W .cte .bayes a kw b) (hb : b.Valid) (h1 : (kw "alpha").bind PyVal.toAlpha = some al)
    (h3 : (kwOr kw "K" .none).toOptArg = some K) (hh : History kw l k s)
    (hcd : kwOr kw "cond_hist_len" (.int 1) = .int c) (hs : 0 < s) (hl : 0 < l) (hk : 0 < k) (hc : 0 < c)
    {dx dy dz : PyData} {source dest z : List (List Int)} {wx wy : Nat} (hx : IntVectors dx wx source)
    (hy : IntVectors dy wy dest) {wz : Nat} (hz : IntVectors dz wz z)
    (hm : max (max k l) c * s < source.length) (hlen : source.length = dest.length) (hlen2 : z.length = dest.length) :
    let M := max (max k l) c
    let F := futRows dest dest.length M s
    let G := histRows source dest.length M s l
    let DZ := (histRows dest dest.length M s k).zip (histRows z dest.length M s c)
    CteIs W.vec dx dy a dz kw
      (.ok ((m.value (F.zip DZ) + m.value (G.zip DZ) - m.value (F.zip (G.zip DZ)) - m.value DZ) / b.ln)) := by
  intro M F G DZ
  obtain ⟨ex, sx⟩ := intVectors_rows hx
  obtain ⟨ey, sy⟩ := intVectors_rows hy
  obtain ⟨ez, sz⟩ := intVectors_rows hz
  unfold CteIs
  rw [← (C72_bias_cte _ m hme source dest z l k c s hs hl hk hc hm hlen hlen2 wx wy wz sx sy sz b hb).1 (by cases hme <;> trivial)]
  exact e2e_vcte_bayes h.name h.accepted h1 h3 hh.u hh.st hh.sh hh.dh (condArg hcd) hh.o h.base ex ey ez

/-- **C90** ANSB: finite exactly if some row of the joint embedding repeats. -/
theorem C90_cte_ansb (h : Call W .cte .ansb a kw b) (hb : b.Valid) (u : ℝ) (hu : 0 ≤ u)
    (h1 : (kwOr kw "undersampled" (.num (1 / 10))).toNum = some u) (hh : History kw l k s)
    (hcd : kwOr kw "cond_hist_len" (.int 1) = .int c) (hs : 0 < s) (hl : 0 < l) (hk : 0 < k) (hc : 0 < c)
    {dx dy dz : PyData} {source dest z : List (List Int)} {wx wy : Nat} (hx : IntVectors dx wx source)
    (hy : IntVectors dy wy dest) {wz : Nat} (hz : IntVectors dz wz z)
    (hm : max (max k l) c * s < source.length) (hlen : source.length = dest.length) (hlen2 : z.length = dest.length) :
    let M := max (max k l) c
    let F := futRows dest dest.length M s
    let G := histRows source dest.length M s l
    let DZ := (histRows dest dest.length M s k).zip (histRows z dest.length M s c)
    (¬ (F.zip (G.zip DZ)).Nodup → CteIs W.vec dx dy a dz kw
      (.ok ((Method.ansb.value (F.zip DZ) + Method.ansb.value (G.zip DZ) - Method.ansb.value (F.zip (G.zip DZ)) -
        Method.ansb.value DZ) / b.ln))) ∧
    ((F.zip (G.zip DZ)).Nodup → CteIs W.vec dx dy a dz kw (.error .nonFinite)) := by
  intro M F G DZ
  obtain ⟨ex, sx⟩ := intVectors_rows hx
  obtain ⟨ey, sy⟩ := intVectors_rows hy
  obtain ⟨ez, sz⟩ := intVectors_rows hz
  have e := e2e_vcte_ansb h.name h.accepted h1 hh.u hh.st hh.sh hh.dh (condArg hcd) hh.o h.base ex ey ez
  have := C72_bias_cte _ _ (.ansb hu) source dest z l k c s hs hl hk hc hm hlen hlen2 wx wy wz sx sy sz b hb
  rw [show ({ srcHist := .int l, destHist := .int k, step := .int s } : TEParams) = teParams l k s from rfl] at e
  unfold CteIs
  exact ⟨fun hn => by rw [this.1 hn] at e; exact e, fun hn => by rw [this.2 (not_not.2 hn)] at e; exact e⟩

/-- **C90** NSB. -/
theorem C90_cte_nsb (h : Call W .cte .nsb a kw b) (hb : b.Valid) (K : Option Nat)
    (hK : kwOr kw "K" .none = (match K with | none => .none | some k => .int k)) (hK0 : ∀ k, K = some k → 0 < k)
    (hh : History kw l k s)
    (hcd : kwOr kw "cond_hist_len" (.int 1) = .int c) (hs : 0 < s) (hl : 0 < l) (hk : 0 < k) (hc : 0 < c)
    {dx dy dz : PyData} {source dest z : List (List Int)} {wx wy : Nat} (hx : IntVectors dx wx source)
    (hy : IntVectors dy wy dest) {wz : Nat} (hz : IntVectors dz wz z)
    (hm : max (max k l) c * s < source.length) (hlen : source.length = dest.length) (hlen2 : z.length = dest.length) :
    let M := max (max k l) c
    let F := futRows dest dest.length M s
    let G := histRows source dest.length M s l
    let DZ := (histRows dest dest.length M s k).zip (histRows z dest.length M s c)
    let ok := Nsb.Defined (F.zip DZ) K ∧ Nsb.Defined (G.zip DZ) K ∧ Nsb.Defined (F.zip (G.zip DZ)) K ∧ Nsb.Defined DZ K
    (ok → CteIs W.vec dx dy a dz kw (.ok ((Nsb.value (F.zip DZ) K + Nsb.value (G.zip DZ) K - Nsb.value (F.zip (G.zip DZ)) K -
      Nsb.value DZ K) / b.ln))) ∧
    (¬ ok → CteIs W.vec dx dy a dz kw (.error .nonFinite)) := by
  intro M F G DZ ok
  obtain ⟨ex, sx⟩ := intVectors_rows hx
  obtain ⟨ey, sy⟩ := intVectors_rows hy
  obtain ⟨ez, sz⟩ := intVectors_rows hz
  have e := e2e_vcte_nsb h.name h.accepted (K := nsbArg K) (by rw [hK]; cases K <;> rfl) hh.u hh.st hh.sh hh.dh (condArg hcd) hh.o
    h.base ex ey ez
  have := C72_nsb_cte W.find K hK0 source dest z l k c s hs hl hk hc hm hlen hlen2 wx wy wz sx sy sz b hb
  rw [show ({ srcHist := .int l, destHist := .int k, step := .int s } : TEParams) = teParams l k s from rfl] at e
  unfold CteIs
  exact ⟨fun hn => by rw [this.1 hn] at e; exact e, fun hn => by rw [this.2 hn] at e; exact e⟩

/-- **C90** box kernel. -/
theorem C90_cte_box (hcl : Call W .cte .kernel a kw b) (hb : b.Valid) (hh : History kw l k s)
    (hcd : kwOr kw "cond_hist_len" (.int 1) = .int c) (hs : 0 < s) (hl : 0 < l) (hk : 0 < k) (hc : 0 < c)
    {dx dy dz : PyData} {source dest z : List (List ℝ)} {wx wy wz : Nat} (hx : RealVectors dx wx source)
    (hy : RealVectors dy wy dest) (hz : RealVectors dz wz z)
    (hm : max (max k l) c * s < source.length) (hlen : source.length = dest.length) (hlen2 : z.length = dest.length)
    (hR : 2 ≤ numRows dest.length (max (max k l) c) s) (h : ℝ) (hpos : 0 < h) (w : Int) (h1 : kwOr kw "bandwidth" .none = .num h)
    (h2 : kwOr kw "kernel" .none = .str "box") (h3 : kwOr kw "workers" (.int 1) = .int w) :
    let M := max (max k l) c
    let R := numRows dest.length M s
    CteIs W.vec dx dy a dz kw
      (.ok (boxCMI R h (vecFut dest M s R) (flatHist source M s l (List.range R))
        (List.zipWith (· ++ ·) (flatHist dest M s k (List.range R)) (flatHist z M s c (List.range R))) / b.ln)) := by
  intro M R
  obtain ⟨ex, sx⟩ := realVectors_rows hx
  obtain ⟨ey, sy⟩ := realVectors_rows hy
  obtain ⟨ez, sz⟩ := realVectors_rows hz
  have e := e2e_vcte_kernel hcl.name hcl.accepted (h := .num h) (by rw [h1]; rfl) (kn := .box)
    (by rw [h2]; simp [PyVal.toKernel]) (w := w) (by rw [h3]; rfl) hh.u hh.st hh.sh hh.dh (condArg hcd) hh.o hcl.base ex ey ez
  unfold CteIs
  rw [← C72_kernel_cte_value source dest z l k c s hs hl hk hc hm hlen hlen2 wx wy wz sx sy sz hR h hpos (resolveWorkers W.cpu w) b hb]
  exact e

/-- **C90** KSG (Frenzel–Pompe) without noise: the value of `im.conditional_mutual_information` for
`I(future; source history | dest history, condition history)` of the embedded vectors, with the same `k`, norm, variant and base. -/
theorem C90_cte_metric (hcl : Call W .cte .metric a kw b) {a' : PyName} {kw' : Kw} (hcl' : Call W .cmi .metric a' kw' b) (hb : b.Valid)
    (hh : History kw l k s)
    (hcd : kwOr kw "cond_hist_len" (.int 1) = .int c) (hs : 0 < s) (hl : 0 < l) (hk : 0 < k) (hc : 0 < c)
    (hp : Plain kw') (h0 : kw "noise_level" = some (.int 0)) (h0' : kw' "noise_level" = some (.int 0))
    {dx dy dz : PyData} {source dest z : List (List ℝ)} {wx wy wz : Nat} (hx : RealVectors dx wx source)
    (hy : RealVectors dy wy dest) (hz : RealVectors dz wz z)
    (hm : max (max k l) c * s < source.length) (hlen : source.length = dest.length) (hlen2 : z.length = dest.length)
    (p : PNorm) (hpn : p.ok = true) (kn : Nat) (hkn : 0 < kn) (hR : kn < numRows dest.length (max (max k l) c) s) (i : Int) (hi : i = 1 ∨ i = 2)
    (h1 : kwOr kw "k" (.int 4) = .int kn) (h1' : kwOr kw' "k" (.int 4) = .int kn)
    (h2 : (kwOr kw "minkowski_p" .inf).toPNorm = some p) (h2' : (kwOr kw' "minkowski_p" .inf).toPNorm = some p)
    (h3 : kwOr kw "ksg_id" (.int 1) = .int i) (h3' : kwOr kw' "ksg_id" (.int 1) = .int i) :
    let M := max (max k l) c
    let R := numRows dest.length M s
    CteIs W.vec dx dy a dz kw
      (imCMI W.vec [.mat ⟨wy, vecFut dest M s R⟩, .mat ⟨l * wx, flatHist source M s l (List.range R)⟩] a'
        (.val (.mat ⟨k * wy + c * wz, List.zipWith (· ++ ·) (flatHist dest M s k (List.range R)) (flatHist z M s c (List.range R))⟩)) kw') := by
  intro M R
  obtain ⟨ex, sx⟩ := realVectors_rows hx
  obtain ⟨ey, sy⟩ := realVectors_rows hy
  obtain ⟨ez, sz⟩ := realVectors_rows hz
  have e' := (e2e_cmi_metric (W := W.vec) hcl'.name (data := [.mat ⟨wy, vecFut dest M s R⟩,
      .mat ⟨l * wx, flatHist source M s l (List.range R)⟩]) (by simp) hcl'.accepted (k := kn)
      (by rw [h1']; simp [PyVal.toNat]) (i := i) (by rw [h3']; rfl) (v := 0)
      (by simp only [kwOr, h0', Option.getD_some]; exact toNoise_zero) (mp := p) h2' (nm := false) (by rw [hp.normalize]; rfl) (o := some 0)
      (by rw [hp.offset]; rfl) hcl'.base (mapM_kvars [.two ⟨wy, vecFut dest M s R⟩, .two ⟨l * wx, flatHist source M s l (List.range R)⟩])
      (toKVar_ofKVar (.two ⟨k * wy + c * wz, List.zipWith (· ++ ·) (flatHist dest M s k (List.range R)) (flatHist z M s c (List.range R))⟩))).1
  have e := e2e_vcte_metric hcl.name hcl.accepted (k := kn) (by rw [h1]; simp [PyVal.toNat]) (i := i)
    (by rw [h3]; rfl) (v := 0) (by simp only [kwOr, h0, Option.getD_some]; exact toNoise_zero) (mp := p) h2 hh.u hh.st hh.sh hh.dh
    (condArg hcd) hh.o hcl.base ex ey ez
  rw [noise2_zero, noise2_zero, noise2_zero,
    show ({ srcHist := .int l, destHist := .int k, step := .int s } : TEParams) = teParams l k s from rfl] at e
  obtain ⟨ls, v, e1, e2, e3, e4⟩ := C72_ksg_cte_is_cmi source dest z l k c s hs hl hk hc hm hlen hlen2 wx wy wz sx sy sz p hpn kn hkn i hi hR b hb
  have ev : ksgCTEVec source dest (some z) (teParams l k s) (.int c) (some (.int 0)) none ⟨kn, i, p⟩ none none none b = .ok v := by
    simp only [ksgCTEVec, e1, bind, Except.bind]
    rw [meanOrNan_ok (by intro hn; rw [hn, List.length_nil] at e2; omega), e3]
  rw [ev] at e
  unfold CteIs
  simp only [PyData.ofKVar, List.map_cons, List.map_nil] at e'
  rw [e', noise2_none]
  have hns : World.noiseSum W.vec 0 = fun _ _ => none := by funext i j; simp [World.noiseSum]
  rw [hns]
  simp only [List.map_cons, List.map_nil, PyData.ofKVar]
  rw [e4]
  exact e

/-- **C90** Rényi conditional transfer entropy without noise. -/
theorem C90_cte_renyi (hcl : Call W .cte .renyi a kw b) {a' : PyName} {kw' : Kw} (hcl' : Call W .cmi .renyi a' kw' b)
    (hh : History kw l k s)
    (hcd : kwOr kw "cond_hist_len" (.int 1) = .int c) (hs : 0 < s) (hl : 0 < l) (hk : 0 < k) (hc : 0 < c)
    (hp : Plain kw') (h0 : kw "noise_level" = some (.int 0)) (h0' : kw' "noise_level" = some (.int 0))
    {dx dy dz : PyData} {source dest z : List (List ℝ)} {wx wy wz : Nat} (hx : RealVectors dx wx source)
    (hy : RealVectors dy wy dest) (hz : RealVectors dz wz z)
    (hm : max (max k l) c * s < source.length) (hlen : source.length = dest.length) (hlen2 : z.length = dest.length) (kn order : PyArg)
    (h1 : (kwOr kw "k" (.int 4)).toArg = some kn) (h1' : (kwOr kw' "k" (.int 4)).toArg = some kn)
    (h2 : (kwOr kw "alpha" .none).toArg = some order) (h2' : (kwOr kw' "alpha" .none).toArg = some order) :
    let M := max (max k l) c
    let R := numRows dest.length M s
    CteIs W.vec dx dy a dz kw
      (imCMI W.vec [.mat ⟨wy, vecFut dest M s R⟩, .mat ⟨l * wx, flatHist source M s l (List.range R)⟩] a'
        (.val (.mat ⟨k * wy + c * wz, List.zipWith (· ++ ·) (flatHist dest M s k (List.range R)) (flatHist z M s c (List.range R))⟩)) kw') := by
  intro M R
  obtain ⟨ex, sx⟩ := realVectors_rows hx
  obtain ⟨ey, sy⟩ := realVectors_rows hy
  obtain ⟨ez, sz⟩ := realVectors_rows hz
  have e' := (e2e_cmi_renyi (W := W.vec) hcl'.name (data := [.mat ⟨wy, vecFut dest M s R⟩,
      .mat ⟨l * wx, flatHist source M s l (List.range R)⟩]) (by simp) hcl'.accepted h1' h2' (v := 0)
      (by simp only [kwOr, h0', Option.getD_some]; exact toNoise_zero) (nm := false) (by rw [hp.normalize]; rfl) (o := some 0)
      (by rw [hp.offset]; rfl) hcl'.base (mapM_kvars [.two ⟨wy, vecFut dest M s R⟩, .two ⟨l * wx, flatHist source M s l (List.range R)⟩])
      (toKVar_ofKVar (.two ⟨k * wy + c * wz, List.zipWith (· ++ ·) (flatHist dest M s k (List.range R)) (flatHist z M s c (List.range R))⟩))).1
  rw [noise2_none] at e'
  have e := e2e_vcte_renyi hcl.name hcl.accepted h1 h2 (v := 0) (by simp only [kwOr, h0, Option.getD_some]; exact toNoise_zero)
    hh.u hh.st hh.sh hh.dh (condArg hcd) hh.o hcl.base ex ey ez
  rw [noise2_zero, noise2_zero, noise2_zero,
    show ({ srcHist := .int l, destHist := .int k, step := .int s } : TEParams) = teParams l k s from rfl,
    (C72_exp_cte_is_cmi renyiVal source dest z l k c s hs hl hk hc hm hlen hlen2 wx wy wz sx sy sz kn order b).2] at e
  unfold CteIs
  simp only [PyData.ofKVar, List.map_cons, List.map_nil] at e'
  rw [e']
  exact e

/-- **C90** Tsallis conditional transfer entropy without noise. -/
theorem C90_cte_tsallis (hcl : Call W .cte .tsallis a kw b) {a' : PyName} {kw' : Kw} (hcl' : Call W .cmi .tsallis a' kw' b)
    (hh : History kw l k s)
    (hcd : kwOr kw "cond_hist_len" (.int 1) = .int c) (hs : 0 < s) (hl : 0 < l) (hk : 0 < k) (hc : 0 < c)
    (hp : Plain kw') (h0 : kw "noise_level" = some (.int 0)) (h0' : kw' "noise_level" = some (.int 0))
    {dx dy dz : PyData} {source dest z : List (List ℝ)} {wx wy wz : Nat} (hx : RealVectors dx wx source)
    (hy : RealVectors dy wy dest) (hz : RealVectors dz wz z)
    (hm : max (max k l) c * s < source.length) (hlen : source.length = dest.length) (hlen2 : z.length = dest.length) (kn order : PyArg)
    (h1 : (kwOr kw "k" (.int 4)).toArg = some kn) (h1' : (kwOr kw' "k" (.int 4)).toArg = some kn)
    (h2 : (kwOr kw "q" .none).toArg = some order) (h2' : (kwOr kw' "q" .none).toArg = some order) :
    let M := max (max k l) c
    let R := numRows dest.length M s
    CteIs W.vec dx dy a dz kw
      (imCMI W.vec [.mat ⟨wy, vecFut dest M s R⟩, .mat ⟨l * wx, flatHist source M s l (List.range R)⟩] a'
        (.val (.mat ⟨k * wy + c * wz, List.zipWith (· ++ ·) (flatHist dest M s k (List.range R)) (flatHist z M s c (List.range R))⟩)) kw') := by
  intro M R
  obtain ⟨ex, sx⟩ := realVectors_rows hx
  obtain ⟨ey, sy⟩ := realVectors_rows hy
  obtain ⟨ez, sz⟩ := realVectors_rows hz
  have e' := (e2e_cmi_tsallis (W := W.vec) hcl'.name (data := [.mat ⟨wy, vecFut dest M s R⟩,
      .mat ⟨l * wx, flatHist source M s l (List.range R)⟩]) (by simp) hcl'.accepted h1' h2' (v := 0)
      (by simp only [kwOr, h0', Option.getD_some]; exact toNoise_zero) (nm := false) (by rw [hp.normalize]; rfl) (o := some 0)
      (by rw [hp.offset]; rfl) hcl'.base (mapM_kvars [.two ⟨wy, vecFut dest M s R⟩, .two ⟨l * wx, flatHist source M s l (List.range R)⟩])
      (toKVar_ofKVar (.two ⟨k * wy + c * wz, List.zipWith (· ++ ·) (flatHist dest M s k (List.range R)) (flatHist z M s c (List.range R))⟩))).1
  rw [noise2_none] at e'
  have e := e2e_vcte_tsallis hcl.name hcl.accepted h1 h2 (v := 0) (by simp only [kwOr, h0, Option.getD_some]; exact toNoise_zero)
    hh.u hh.st hh.sh hh.dh (condArg hcd) hh.o hcl.base ex ey ez
  rw [noise2_zero, noise2_zero, noise2_zero,
    show ({ srcHist := .int l, destHist := .int k, step := .int s } : TEParams) = teParams l k s from rfl,
    (C72_exp_cte_is_cmi tsallisVal source dest z l k c s hs hl hk hc hm hlen hlen2 wx wy wz sx sy sz kn order b).2] at e
  unfold CteIs
  simp only [PyData.ofKVar, List.map_cons, List.map_nil] at e'
  rw [e']
  exact e

end Verif
