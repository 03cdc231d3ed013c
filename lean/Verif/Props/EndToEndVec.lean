import Verif.Props.EndToEnd3
import Verif.Props.VecTE4
import Verif.Lemmas.EndToEndVecGen
import Verif.Spec.EndToEndVec

/-!
# C90: two-dimensional arrays through the public functions (transfer entropy)

`W.vec` is the world in which the estimators are also evaluated for two-dimensional arrays.  `IntVectors`, `RealVectors`
(`Spec/EndToEndVec.lean`): the argument is a series of vectors.  `futRows`, `histRows` (`Spec/Embedding.lean`): the documented embedding,
whose entries are here vectors; `vecFut`, `flatHist`: the same with the components laid side by side.

Concrete calls that meet the hypotheses are in `Props/EndToEndVecEx.lean`.
-/

namespace Verif

open Spec

variable {W : World} {a : PyName} {kw : Kw} {b : Base} {cond : CondKw PyData} {l k s c : Nat}

theorem intVectors_rows {d : PyData} {w : Nat} {rows : List (List Int)} (h : IntVectors d w rows) :
    d.toIntRows = some rows ∧ VecShape w rows := by
  cases h with
  | one xs => exact ⟨rfl, singles_shape xs⟩
  | two w rows hw h => exact ⟨rfl, hw, h⟩

theorem realVectors_rows {d : PyData} {w : Nat} {rows : List (List ℝ)} (h : RealVectors d w rows) :
    d.toRows = some rows ∧ VecShape w rows := by
  cases h with
  | one xs =>
    refine ⟨rfl, Nat.one_pos, fun v hv => ?_⟩
    obtain ⟨x, -, rfl⟩ := List.mem_map.1 hv
    rfl
  | two w rows hw h => exact ⟨rfl, hw, h⟩
  | int h =>
    cases h with
    | one xs =>
      refine ⟨by simp [PyData.toRows, asReals], Nat.one_pos, fun v hv => ?_⟩
      obtain ⟨x, hx, rfl⟩ := List.mem_map.1 hv
      obtain ⟨y, -, rfl⟩ := List.mem_map.1 hx
      rfl
    | two w rows hw h =>
      refine ⟨rfl, hw, fun v hv => ?_⟩
      obtain ⟨x, hx, rfl⟩ := List.mem_map.1 hv
      rw [List.length_map]; exact h x hx

/-- the value of the plug-in and Miller–Madow transfer entropy of vector-valued series -/
theorem vec_te_combo (source dest : List (List Int)) (hs : 0 < s) (hl : 0 < l) (hk : 0 < k)
    (hm : max k l * s < source.length) (hlen : source.length = dest.length) (hov : dest.length < 2 ^ 32) {m n : Nat}
    (hx : VecShape m source) (hy : VecShape n dest) (hb : b.Valid) (mm : Bool) :
    let F := futRows dest dest.length (max k l) s
    let G := histRows source dest.length (max k l) s l
    let D := histRows dest dest.length (max k l) s k
    discreteTEVec source dest (teParams l k s) (some (.int 0)) none b mm =
      .ok ((hSpec mm (F.zip D) + hSpec mm (G.zip D) - hSpec mm (F.zip (G.zip D)) - hSpec mm D) / b.ln) := by
  intro F G D
  rw [vec_te_value source dest l k s hs hl hk hm hlen hov hx hy hb mm lawful_none]
  have hget : ∀ i ∈ List.range (numRows dest.length (max k l) s),
      (srcSel {} (numRows dest.length (max k l) s)).getD i 0 = i := by
    intro i hi
    rw [srcSel_none, List.getD_eq_getElem?_getD]
    simp [List.mem_range.1 hi]
  simp only [F, G, D, histRows, futRows, zip_map_map]
  rw [List.map_congr_left (g := fun i => (histRow source (max k l) s l i, histRow dest (max k l) s k i))
    (f := fun i => (histRow source (max k l) s l _, histRow dest (max k l) s k i)) (fun i hi => by rw [hget i hi]),
    List.map_congr_left (g := fun i => ([dest.getD ((max k l + i) * s) default], histRow source (max k l) s l i,
      histRow dest (max k l) s k i)) (f := fun i => (_, histRow source (max k l) s l _, histRow dest (max k l) s k i))
      (fun i hi => by rw [hget i hi])]

/-- **C90** `im.transfer_entropy(source, dest, …)` of integer vectors: `I(future of dest ; history of source | history of dest)`, where a
value is a whole vector. -/
theorem C90_te (h : Call W .te .discrete a kw b) (hb : b.Valid) (hc : cond.isVal = false) (hh : History kw l k s) (hs : 0 < s)
    (hl : 0 < l) (hk : 0 < k) {dx dy : PyData} {source dest : List (List Int)} {m n : Nat} (hx : IntVectors dx m source)
    (hy : IntVectors dy n dest) (hm : max k l * s < source.length) (hlen : source.length = dest.length)
    (hov : dest.length < 2 ^ 32) :
    imTE W.vec [dx, dy] a cond kw =
      .ok (Spec.cmi (futRows dest dest.length (max k l) s) (histRows source dest.length (max k l) s l)
        (histRows dest dest.length (max k l) s k) / b.ln) := by
  rw [e2e_vte_discrete hc h.name h.accepted hh.u hh.st hh.sh hh.dh hh.o h.base (intVectors_rows hx).1 (intVectors_rows hy).1,
    show ({ srcHist := .int l, destHist := .int k, step := .int s } : TEParams) = teParams l k s from rfl,
    vec_te_combo source dest hs hl hk hm hlen hov (intVectors_rows hx).2 (intVectors_rows hy).2 hb false,
    cmi_eq_entropies _ _ _ (by simp [futRows, histRows]) (by simp [histRows])]
  simp only [hSpec, Bool.false_eq_true, if_false]

/-- **C90** Miller–Madow: the same combination of Miller–Madow entropies. -/
theorem C90_te_miller_madow (h : Call W .te .millerMadow a kw b) (hb : b.Valid) (hc : cond.isVal = false) (hh : History kw l k s)
    (hs : 0 < s) (hl : 0 < l) (hk : 0 < k) {dx dy : PyData} {source dest : List (List Int)} {m n : Nat} (hx : IntVectors dx m source)
    (hy : IntVectors dy n dest) (hm : max k l * s < source.length)
    (hlen : source.length = dest.length) (hov : dest.length < 2 ^ 32) :
    let F := futRows dest dest.length (max k l) s
    let G := histRows source dest.length (max k l) s l
    let D := histRows dest dest.length (max k l) s k
    imTE W.vec [dx, dy] a cond kw =
      .ok ((millerMadow (F.zip D) + millerMadow (G.zip D) - millerMadow (F.zip (G.zip D)) - millerMadow D) / b.ln) := by
  intro F G D
  rw [e2e_vte_millerMadow hc h.name h.accepted hh.u hh.st hh.sh hh.dh hh.o h.base (intVectors_rows hx).1 (intVectors_rows hy).1,
    show ({ srcHist := .int l, destHist := .int k, step := .int s } : TEParams) = teParams l k s from rfl,
    vec_te_combo source dest hs hl hk hm hlen hov (intVectors_rows hx).2 (intVectors_rows hy).2 hb true]
  simp only [hSpec, if_true, F, G, D]

/-- **C90** the six parameter-free bias-corrected estimators. -/
theorem C90_te_bias {f : Fam} {m : Method} (hf : FamMethod f m) (h : Call W .te f a kw b) (hb : b.Valid)
    (hc : cond.isVal = false) (hh : History kw l k s) (hs : 0 < s) (hl : 0 < l) (hk : 0 < k) {dx dy : PyData}
    {source dest : List (List Int)} {wx wy : Nat} (hx : IntVectors dx wx source) (hy : IntVectors dy wy dest)
    (hm : max k l * s < source.length) (hlen : source.length = dest.length) :
    let F := futRows dest dest.length (max k l) s
    let G := histRows source dest.length (max k l) s l
    let D := histRows dest dest.length (max k l) s k
    imTE W.vec [dx, dy] a cond kw =
      .ok ((m.value (F.zip D) + m.value (G.zip D) - m.value (F.zip (G.zip D)) - m.value D) / b.ln) := by
  intro F G D
  obtain ⟨ex, sx⟩ := intVectors_rows hx
  obtain ⟨ey, sy⟩ := intVectors_rows hy
  have key : ∀ (c : BiasClass) (m : Method), c.Means m → m.Defined (F.zip (G.zip D)) →
      biasTEVec c source dest (teParams l k s) (some (.int 0)) none b =
      .ok ((m.value (F.zip D) + m.value (G.zip D) - m.value (F.zip (G.zip D)) - m.value D) / b.ln) := fun c m hcm hd =>
    (C72_bias_te c m hcm source dest l k s hs hl hk hm hlen wx wy sx sy b hb).1 hd
  cases hf with
  | grassberger =>
    rw [← key _ _ .grassberger trivial]
    exact e2e_vte_grassberger hc h.name h.accepted hh.u hh.st hh.sh hh.dh hh.o h.base ex ey
  | chaoShen =>
    rw [← key _ _ .chaoShen trivial]
    exact e2e_vte_chaoShen hc h.name h.accepted hh.u hh.st hh.sh hh.dh hh.o h.base ex ey
  | chaoWangJost =>
    rw [← key _ _ .chaoWangJost trivial]
    exact e2e_vte_chaoWangJost hc h.name h.accepted hh.u hh.st hh.sh hh.dh hh.o h.base ex ey
  | shrink =>
    rw [← key _ _ .shrink trivial]
    exact e2e_vte_shrink hc h.name h.accepted hh.u hh.st hh.sh hh.dh hh.o h.base ex ey
  | zhang =>
    rw [← key _ _ .zhang trivial]
    exact e2e_vte_zhang hc h.name h.accepted hh.u hh.st hh.sh hh.dh hh.o h.base ex ey
  | bonachela =>
    rw [← key _ _ .bonachela trivial]
    exact e2e_vte_bonachela hc h.name h.accepted hh.u hh.st hh.sh hh.dh hh.o h.base ex ey

/-- **C90** the Bayesian estimator. -/
theorem C90_te_bayes (al : AlphaArg) (K : Option PyArg) {m : Method} (hme : (BiasClass.bayes al K).Means m)
    (h : Call W .te .bayes a kw b) (hb : b.Valid) (h1 : (kw "alpha").bind PyVal.toAlpha = some al)
    (h3 : (kwOr kw "K" .none).toOptArg = some K)
    (hc : cond.isVal = false) (hh : History kw l k s) (hs : 0 < s) (hl : 0 < l) (hk : 0 < k) {dx dy : PyData}
    {source dest : List (List Int)} {wx wy : Nat} (hx : IntVectors dx wx source) (hy : IntVectors dy wy dest)
    (hm : max k l * s < source.length) (hlen : source.length = dest.length) :
    let F := futRows dest dest.length (max k l) s
    let G := histRows source dest.length (max k l) s l
    let D := histRows dest dest.length (max k l) s k
    imTE W.vec [dx, dy] a cond kw =
      .ok ((m.value (F.zip D) + m.value (G.zip D) - m.value (F.zip (G.zip D)) - m.value D) / b.ln) := by
  intro F G D
  rw [e2e_vte_bayes hc h.name h.accepted h1 h3 hh.u hh.st hh.sh hh.dh hh.o h.base (intVectors_rows hx).1 (intVectors_rows hy).1]
  exact (C72_bias_te _ m hme source dest l k s hs hl hk hm hlen wx wy (intVectors_rows hx).2 (intVectors_rows hy).2 b hb).1
    (by cases hme <;> trivial)

/-- **C90** ANSB: finite exactly if some row of the joint embedding repeats. -/
theorem C90_te_ansb (h : Call W .te .ansb a kw b) (hb : b.Valid) (u : ℝ) (hu : 0 ≤ u)
    (h1 : (kwOr kw "undersampled" (.num (1 / 10))).toNum = some u)
    (hc : cond.isVal = false) (hh : History kw l k s) (hs : 0 < s) (hl : 0 < l) (hk : 0 < k) {dx dy : PyData}
    {source dest : List (List Int)} {wx wy : Nat} (hx : IntVectors dx wx source) (hy : IntVectors dy wy dest)
    (hm : max k l * s < source.length) (hlen : source.length = dest.length) :
    let F := futRows dest dest.length (max k l) s
    let G := histRows source dest.length (max k l) s l
    let D := histRows dest dest.length (max k l) s k
    (¬ (F.zip (G.zip D)).Nodup → imTE W.vec [dx, dy] a cond kw =
      .ok ((Method.ansb.value (F.zip D) + Method.ansb.value (G.zip D) - Method.ansb.value (F.zip (G.zip D)) -
        Method.ansb.value D) / b.ln)) ∧
    ((F.zip (G.zip D)).Nodup → imTE W.vec [dx, dy] a cond kw = .error .nonFinite) := by
  intro F G D
  rw [e2e_vte_ansb hc h.name h.accepted h1 hh.u hh.st hh.sh hh.dh hh.o h.base (intVectors_rows hx).1 (intVectors_rows hy).1]
  have := C72_bias_te _ _ (.ansb hu) source dest l k s hs hl hk hm hlen wx wy (intVectors_rows hx).2 (intVectors_rows hy).2 b hb
  exact ⟨fun hn => this.1 hn, fun hn => this.2 (not_not.2 hn)⟩

/-- **C90** NSB. -/
theorem C90_te_nsb (h : Call W .te .nsb a kw b) (hb : b.Valid) (K : Option Nat)
    (hK : kwOr kw "K" .none = (match K with | none => .none | some k => .int k)) (hK0 : ∀ k, K = some k → 0 < k)
    (hc : cond.isVal = false) (hh : History kw l k s) (hs : 0 < s) (hl : 0 < l) (hk : 0 < k) {dx dy : PyData}
    {source dest : List (List Int)} {wx wy : Nat} (hx : IntVectors dx wx source) (hy : IntVectors dy wy dest)
    (hm : max k l * s < source.length) (hlen : source.length = dest.length) :
    let F := futRows dest dest.length (max k l) s
    let G := histRows source dest.length (max k l) s l
    let D := histRows dest dest.length (max k l) s k
    let ok := Nsb.Defined (F.zip D) K ∧ Nsb.Defined (G.zip D) K ∧ Nsb.Defined (F.zip (G.zip D)) K ∧ Nsb.Defined D K
    (ok → imTE W.vec [dx, dy] a cond kw = .ok ((Nsb.value (F.zip D) K +
      Nsb.value (G.zip D) K - Nsb.value (F.zip (G.zip D)) K - Nsb.value D K) / b.ln)) ∧
    (¬ ok → imTE W.vec [dx, dy] a cond kw = .error .nonFinite) := by
  intro F G D ok
  rw [e2e_vte_nsb hc h.name h.accepted (K := nsbArg K) (by rw [hK]; cases K <;> rfl) hh.u hh.st hh.sh hh.dh hh.o h.base
    (intVectors_rows hx).1 (intVectors_rows hy).1]
  exact C72_nsb_te W.find K hK0 source dest l k s hs hl hk hm hlen wx wy (intVectors_rows hx).2 (intVectors_rows hy).2 b hb

/-- **C90** box kernel: the components of a vector are coordinates of the kernel. -/
theorem C90_te_box (hcl : Call W .te .kernel a kw b) (hb : b.Valid) (hc : cond.isVal = false) (hh : History kw l k s) (hs : 0 < s)
    (hl : 0 < l) (hk : 0 < k) {dx dy : PyData} {source dest : List (List ℝ)} {wx wy : Nat} (hx : RealVectors dx wx source)
    (hy : RealVectors dy wy dest) (hm : max k l * s < source.length) (hlen : source.length = dest.length)
    (hR : 2 ≤ numRows dest.length (max k l) s) (h : ℝ) (hpos : 0 < h) (w : Int) (h1 : kwOr kw "bandwidth" .none = .num h)
    (h2 : kwOr kw "kernel" .none = .str "box") (h3 : kwOr kw "workers" (.int 1) = .int w) :
    let R := numRows dest.length (max k l) s
    imTE W.vec [dx, dy] a cond kw =
      .ok (boxCMI R h (vecFut dest (max k l) s R) (flatHist source (max k l) s l (List.range R))
        (flatHist dest (max k l) s k (List.range R)) / b.ln) := by
  intro R
  rw [e2e_vte_kernel hc hcl.name hcl.accepted (h := .num h) (by rw [h1]; rfl) (kn := .box)
    (by rw [h2]; simp [PyVal.toKernel]) (w := w) (by rw [h3]; rfl) hh.u hh.st hh.sh hh.dh hh.o hcl.base
    (realVectors_rows hx).1 (realVectors_rows hy).1]
  have := C72_kernel_te_value source dest l k s hs hl hk hm hlen wx wy (realVectors_rows hx).2 (realVectors_rows hy).2 hR h hpos
    (resolveWorkers W.cpu w) b hb {} lawful_none
  simp only [srcSel_none] at this
  exact this

/-- **C90** KSG (Frenzel–Pompe) without noise: the value of `im.conditional_mutual_information` for
`I(future; source history | dest history)` of the embedded vectors, with the same `k`, norm, variant and base. -/
theorem C90_te_metric (hcl : Call W .te .metric a kw b) {a' : PyName} {kw' : Kw} (hcl' : Call W .cmi .metric a' kw' b) (hb : b.Valid)
    (hc : cond.isVal = false) (hh : History kw l k s) (hp : Plain kw') (h0 : kw "noise_level" = some (.int 0))
    (h0' : kw' "noise_level" = some (.int 0)) (hs : 0 < s) (hl : 0 < l) (hk : 0 < k)
    {dx dy : PyData} {source dest : List (List ℝ)} {wx wy : Nat} (hx : RealVectors dx wx source)
    (hy : RealVectors dy wy dest) (hm : max k l * s < source.length) (hlen : source.length = dest.length)
    (p : PNorm) (hpn : p.ok = true) (kn : Nat) (hkn : 0 < kn) (i : Int) (hi : i = 1 ∨ i = 2)
    (h1 : kwOr kw "k" (.int 4) = .int kn) (h1' : kwOr kw' "k" (.int 4) = .int kn)
    (h2 : (kwOr kw "minkowski_p" .inf).toPNorm = some p) (h2' : (kwOr kw' "minkowski_p" .inf).toPNorm = some p)
    (h3 : kwOr kw "ksg_id" (.int 1) = .int i) (h3' : kwOr kw' "ksg_id" (.int 1) = .int i) :
    let R := numRows dest.length (max k l) s
    imTE W.vec [dx, dy] a cond kw =
      imCMI W.vec [.mat ⟨wy, vecFut dest (max k l) s R⟩, .mat ⟨l * wx, flatHist source (max k l) s l (List.range R)⟩] a'
        (.val (.mat ⟨k * wy, flatHist dest (max k l) s k (List.range R)⟩)) kw' := by
  intro R
  have e := (e2e_cmi_metric (W := W.vec) hcl'.name (data := [.mat ⟨wy, vecFut dest (max k l) s R⟩,
      .mat ⟨l * wx, flatHist source (max k l) s l (List.range R)⟩]) (by simp) hcl'.accepted (k := kn)
      (by rw [h1']; simp [PyVal.toNat]) (i := i) (by rw [h3']; rfl) (v := 0)
      (by simp only [kwOr, h0', Option.getD_some]; exact toNoise_zero) (mp := p) h2' (nm := false) (by rw [hp.normalize]; rfl) (o := some 0)
      (by rw [hp.offset]; rfl) hcl'.base (mapM_kvars [.two ⟨wy, vecFut dest (max k l) s R⟩,
        .two ⟨l * wx, flatHist source (max k l) s l (List.range R)⟩])
      (toKVar_ofKVar (.two ⟨k * wy, flatHist dest (max k l) s k (List.range R)⟩))).1
  refine Eq.trans ?_ e.symm
  rw [e2e_vte_metric hc hcl.name hcl.accepted (k := kn) (by rw [h1]; simp [PyVal.toNat]) (i := i)
    (by rw [h3]; rfl) (v := 0) (by simp only [kwOr, h0, Option.getD_some]; exact toNoise_zero) (mp := p) h2 hh.u hh.st hh.sh hh.dh
    hh.o hcl.base (realVectors_rows hx).1 (realVectors_rows hy).1, noise2_zero, noise2_zero]
  obtain ⟨H, v, e1, e2⟩ := C72_ksg_te_is_cmi source dest l k s hs hl hk hm hlen wx wy (realVectors_rows hx).2 (realVectors_rows hy).2 p
    hpn kn hkn i hi b hb {} lawful_none
  rw [srcSel_none] at e2
  refine e1.trans (e2.symm.trans ?_)
  rw [noise2_none]
  congr 1
  simp [World.noiseSum]

/-- **C90** Rényi transfer entropy without noise: the value (or exception) of `im.conditional_mutual_information` for
`I(future; source history | dest history)` of the embedded vectors with the same `k`, order and base. -/
theorem C90_te_renyi (hcl : Call W .te .renyi a kw b) {a' : PyName} {kw' : Kw} (hcl' : Call W .cmi .renyi a' kw' b)
    (hc : cond.isVal = false) (hh : History kw l k s) (hp : Plain kw') (h0 : kw "noise_level" = some (.int 0))
    (h0' : kw' "noise_level" = some (.int 0)) (hs : 0 < s) (hl : 0 < l) (hk : 0 < k)
    {dx dy : PyData} {source dest : List (List ℝ)} {wx wy : Nat} (hx : RealVectors dx wx source)
    (hy : RealVectors dy wy dest) (hm : max k l * s < source.length) (hlen : source.length = dest.length) (kn order : PyArg)
    (h1 : (kwOr kw "k" (.int 4)).toArg = some kn) (h1' : (kwOr kw' "k" (.int 4)).toArg = some kn)
    (h2 : (kwOr kw "alpha" .none).toArg = some order) (h2' : (kwOr kw' "alpha" .none).toArg = some order) :
    let R := numRows dest.length (max k l) s
    imTE W.vec [dx, dy] a cond kw =
      imCMI W.vec [.mat ⟨wy, vecFut dest (max k l) s R⟩, .mat ⟨l * wx, flatHist source (max k l) s l (List.range R)⟩] a'
        (.val (.mat ⟨k * wy, flatHist dest (max k l) s k (List.range R)⟩)) kw' := by
  intro R
  have e := (e2e_cmi_renyi (W := W.vec) hcl'.name (data := [.mat ⟨wy, vecFut dest (max k l) s R⟩,
      .mat ⟨l * wx, flatHist source (max k l) s l (List.range R)⟩]) (by simp) hcl'.accepted h1' h2' (v := 0)
      (by simp only [kwOr, h0', Option.getD_some]; exact toNoise_zero) (nm := false) (by rw [hp.normalize]; rfl) (o := some 0)
      (by rw [hp.offset]; rfl) hcl'.base (mapM_kvars [.two ⟨wy, vecFut dest (max k l) s R⟩,
        .two ⟨l * wx, flatHist source (max k l) s l (List.range R)⟩])
      (toKVar_ofKVar (.two ⟨k * wy, flatHist dest (max k l) s k (List.range R)⟩))).1
  rw [noise2_none] at e
  refine Eq.trans ?_ e.symm
  rw [e2e_vte_renyi hc hcl.name hcl.accepted h1 h2 (v := 0) (by simp only [kwOr, h0, Option.getD_some]; exact toNoise_zero) hh.u hh.st
    hh.sh hh.dh hh.o hcl.base (realVectors_rows hx).1 (realVectors_rows hy).1, noise2_zero, noise2_zero]
  have := (C72_exp_te_is_cmi renyiVal source dest l k s hs hl hk hm hlen wx wy (realVectors_rows hx).2 (realVectors_rows hy).2 kn order b
    {} lawful_none).2
  rw [srcSel_none] at this
  exact this

/-- **C90** Tsallis transfer entropy without noise. -/
theorem C90_te_tsallis (hcl : Call W .te .tsallis a kw b) {a' : PyName} {kw' : Kw} (hcl' : Call W .cmi .tsallis a' kw' b)
    (hc : cond.isVal = false) (hh : History kw l k s) (hp : Plain kw') (h0 : kw "noise_level" = some (.int 0))
    (h0' : kw' "noise_level" = some (.int 0)) (hs : 0 < s) (hl : 0 < l) (hk : 0 < k)
    {dx dy : PyData} {source dest : List (List ℝ)} {wx wy : Nat} (hx : RealVectors dx wx source)
    (hy : RealVectors dy wy dest) (hm : max k l * s < source.length) (hlen : source.length = dest.length) (kn order : PyArg)
    (h1 : (kwOr kw "k" (.int 4)).toArg = some kn) (h1' : (kwOr kw' "k" (.int 4)).toArg = some kn)
    (h2 : (kwOr kw "q" .none).toArg = some order) (h2' : (kwOr kw' "q" .none).toArg = some order) :
    let R := numRows dest.length (max k l) s
    imTE W.vec [dx, dy] a cond kw =
      imCMI W.vec [.mat ⟨wy, vecFut dest (max k l) s R⟩, .mat ⟨l * wx, flatHist source (max k l) s l (List.range R)⟩] a'
        (.val (.mat ⟨k * wy, flatHist dest (max k l) s k (List.range R)⟩)) kw' := by
  intro R
  have e := (e2e_cmi_tsallis (W := W.vec) hcl'.name (data := [.mat ⟨wy, vecFut dest (max k l) s R⟩,
      .mat ⟨l * wx, flatHist source (max k l) s l (List.range R)⟩]) (by simp) hcl'.accepted h1' h2' (v := 0)
      (by simp only [kwOr, h0', Option.getD_some]; exact toNoise_zero) (nm := false) (by rw [hp.normalize]; rfl) (o := some 0)
      (by rw [hp.offset]; rfl) hcl'.base (mapM_kvars [.two ⟨wy, vecFut dest (max k l) s R⟩,
        .two ⟨l * wx, flatHist source (max k l) s l (List.range R)⟩])
      (toKVar_ofKVar (.two ⟨k * wy, flatHist dest (max k l) s k (List.range R)⟩))).1
  rw [noise2_none] at e
  refine Eq.trans ?_ e.symm
  rw [e2e_vte_tsallis hc hcl.name hcl.accepted h1 h2 (v := 0) (by simp only [kwOr, h0, Option.getD_some]; exact toNoise_zero) hh.u hh.st
    hh.sh hh.dh hh.o hcl.base (realVectors_rows hx).1 (realVectors_rows hy).1, noise2_zero, noise2_zero]
  have := (C72_exp_te_is_cmi tsallisVal source dest l k s hs hl hk hm hlen wx wy (realVectors_rows hx).2 (realVectors_rows hy).2 kn order b
    {} lawful_none).2
  rw [srcSel_none] at this
  exact this

end Verif
