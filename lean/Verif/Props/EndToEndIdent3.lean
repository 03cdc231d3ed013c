import Verif.Props.EndToEndIdent2
import Verif.Props.Bias2

/-!
# C91: self-information, the shrinkage exception, and transfer entropy as conditional mutual information of the KSG estimator

Concrete calls that meet the hypotheses are in `Props/EndToEndIdentEx.lean`.
-/

namespace Verif

open Spec

variable {W : World} {a aM aT : PyName} {kw kwM kwT : Kw} {b : Base} {cond : CondKw PyData} {l k s c : Nat}

theorem idn_self {x : List Int} (hM : MiFromEntropies W a kw aM cond kwM [x, x])
    (hj : imEntropy W [.intTup [x, x]] a .absent kw = imEntropy W [.ints x] a .absent kw) :
    imMI W [.ints x, .ints x] aM cond kwM = imEntropy W [.ints x] a .absent kw := by
  obtain ⟨h, hj', h1, h2, h3⟩ := hM
  have e := h1 x (by simp)
  rw [hj, e] at h2
  have h2' : h x = hj' := Except.ok.inj h2
  rw [e]
  simpa [← h2'] using h3

/-- **C91** `im.mutual_information(x, x)` is `im.entropy(x)` (plug-in estimator). -/
theorem C91_mi_self (hH : Call W .h .discrete a kw b) (hM : Call W .mi .discrete aM kwM b) (hb : b.Std) (hcd : cond.isVal = false)
    (ho : kwOr kwM "offset" (.int 0) = .int 0) (x : List Int) (hx : x ≠ []) (hov : x.length < 2 ^ 32) :
    imMI W [.ints x, .ints x] aM cond kwM = imEntropy W [.ints x] a .absent kw :=
  idn_self (C91_mi hH hM hb hcd ho [x, x] x.length (List.length_pos_iff.2 hx) (by simp) (by simp)
      (by
        have : x.length ^ 2 < (2 ^ 32) ^ 2 := Nat.pow_lt_pow_left hov (by norm_num)
        simpa using this) (.inl rfl))
    (C91_joint_entropy .discrete (by simp [simpleFams]) hH hb x [x, x] x.length (List.length_pos_iff.2 hx) (by simp) (by simp) rfl
      (by simp))

/-- **C91** the same for the bias-corrected estimators without parameters, shrinkage excepted. -/
theorem C91_mi_self_bias {f : Fam} {m : Method} (hf : FamMethod f m) (hs : f ≠ .shrink) (hH : Call W .h f a kw b)
    (hM : Call W .mi f aM kwM b) (hb : b.Std) (hcd : cond.isVal = false) (hp : Plain kwM) (x : List Int) (hx : x ≠ []) :
    imMI W [.ints x, .ints x] aM cond kwM = imEntropy W [.ints x] a .absent kw :=
  idn_self (C91_mi_bias hf hs hH hM hb hcd hp [x, x] x.length (List.length_pos_iff.2 hx) (by simp) (by simp))
    (C91_joint_entropy f (idn_fam_value hf hs).1 hH hb x [x, x] x.length (List.length_pos_iff.2 hx) (by simp) (by simp) rfl (by simp))

/-- **C91** (negative) the shrinkage estimator breaks these identities: on `x = 0,0,0,0,0,0,0,1` the calls `im.entropy(x)`,
`im.entropy((x, x))` and `im.mutual_information(x, x)` succeed, the two entropies agree, but the mutual information is smaller than the
entropy by `log 5 / 24` (in the chosen base): the mutual information weights the logarithms of the shrunk probabilities by the
relative frequencies, the entropy by the shrunk probabilities. -/
theorem C91_shrink_exception (hH : Call W .h .shrink a kw b) (hM : Call W .mi .shrink aM kwM b) (hb : b.Std) (hcd : cond.isVal = false)
    (hp : Plain kwM) :
    ∃ h, imEntropy W [.ints [0, 0, 0, 0, 0, 0, 0, 1]] a .absent kw = .ok h ∧
      imEntropy W [.intTup [[0, 0, 0, 0, 0, 0, 0, 1], [0, 0, 0, 0, 0, 0, 0, 1]]] a .absent kw = .ok h ∧
      imMI W [.ints [0, 0, 0, 0, 0, 0, 0, 1], .ints [0, 0, 0, 0, 0, 0, 0, 1]] aM cond kwM = .ok (h - Real.log 5 / 24 / b.ln) ∧
      h - Real.log 5 / 24 / b.ln ≠ h + h - h := by
  obtain ⟨x, hx⟩ : ∃ x : List Int, x = [0, 0, 0, 0, 0, 0, 0, 1] := ⟨_, rfl⟩
  rw [← hx]
  have hne : x ≠ [] := by rw [hx]; simp
  obtain ⟨h1, f0, f1, -, p0, p1⟩ := shrink_witness x hx
  have e := C82_entropy .shrink (by simp [simpleFams]) hH hb x hne
  have hlog : 0 < Real.log 5 := Real.log_pos (by norm_num)
  refine ⟨_, e, ?_, ?_, ?_⟩
  · rw [← e]
    exact C91_joint_entropy .shrink (by simp [simpleFams]) hH hb x [x, x] x.length (List.length_pos_iff.2 hne) (by simp) (by simp) rfl
      (by simp)
  · have hj : SameCounts (rows x.length [x, x]) x := by
      conv => arg 2; rw [bias_map_getD_range x rfl]
      exact sameCounts_map _ _ _ fun s _ t _ => by rw [row_mem_iff]; simp
    have := C82_mi_bias .shrink hM hb.valid hcd hp [x, x] x.length (List.length_pos_iff.2 hne) (by simp) (by simp)
    simp only [List.map_cons, List.map_nil] at this
    rw [this, value_congr hj]
    congr 1
    rw [div_div, mul_comm (24 : ℝ), ← div_div, div_right_comm, ← sub_div]
    congr 1
    simp only [entropyFormula, Method.value, shrink, shrinkCross, List.sum_cons, List.sum_nil, h1, Finset.sum_pair (show (0 : Int) ≠ 1 by decide), f0, f1, p0, p1]
    rw [Real.log_div (by norm_num) (by norm_num), Real.log_div (by norm_num) (by norm_num), Real.log_one]
    ring
  · intro h'
    have : Real.log 5 / 24 / b.ln = 0 := by linarith
    have h0 := hb.ln_pos
    have : 0 < Real.log 5 / 24 / b.ln := by positivity
    linarith

/-! ## KSG: transfer entropy is the conditional mutual information of the embedding -/

/-- **C91** KSG transfer entropy without noise is `im.conditional_mutual_information` of the embedded series: the future values, the
source histories, given the destination histories. -/
theorem C91_te_metric_is_cmi (hT : Call W .te .metric aT kwT b) (hM : Call W .cmi .metric aM kwM b) (hb : b.Valid)
    (hcd : cond.isVal = false) (hh : History kwT l k s) (hp : Plain kwM) (h0 : kwT "noise_level" = some (.int 0))
    (h0' : kwM "noise_level" = some (.int 0)) (hs : 0 < s) (hl : 0 < l) (hk : 0 < k) (source dest : List ℝ)
    (hm : max k l * s < source.length) (hlen : source.length = dest.length) (p : PNorm) (hpn : p.ok = true) (kn : Nat) (hkn : 0 < kn)
    (i : Int) (hi : i = 1 ∨ i = 2) (h1 : kwOr kwT "k" (.int 4) = .int kn) (h1' : kwOr kwM "k" (.int 4) = .int kn)
    (h2 : (kwOr kwT "minkowski_p" .inf).toPNorm = some p) (h2' : (kwOr kwM "minkowski_p" .inf).toPNorm = some p)
    (h3 : kwOr kwT "ksg_id" (.int 1) = .int i) (h3' : kwOr kwM "ksg_id" (.int 1) = .int i) :
    imTE W [.reals source, .reals dest] aT cond kwT =
      imCMI W [.mat ⟨1, futRows dest dest.length (max k l) s⟩, .mat ⟨l, histRows source dest.length (max k l) s l⟩] aM
        (.val (.mat ⟨k, histRows dest dest.length (max k l) s k⟩)) kwM := by
  have e := (e2e_cmi_metric hM.name (data := [.mat ⟨1, futRows dest dest.length (max k l) s⟩,
      .mat ⟨l, histRows source dest.length (max k l) s l⟩]) (by simp) hM.accepted (k := kn) (by rw [h1']; simp [PyVal.toNat]) (i := i)
      (by rw [h3']; rfl) (v := 0) (by simp only [kwOr, h0', Option.getD_some]; exact toNoise_zero) (mp := p) h2' (nm := false)
      (by rw [hp.normalize]; rfl) (o := some 0) (by rw [hp.offset]; rfl) hM.base
      (mapM_kvars [.two ⟨1, futRows dest dest.length (max k l) s⟩, .two ⟨l, histRows source dest.length (max k l) s l⟩])
      (toKVar_ofKVar (.two ⟨k, histRows dest dest.length (max k l) s k⟩))).1
  rw [noise2_none, noiseSum_zero] at e
  refine Eq.trans ?_ e.symm
  rw [e2e_te_metric hcd hT.name hT.accepted (k := kn) (by rw [h1]; simp [PyVal.toNat]) (i := i)
      (by rw [h3]; rfl) (v := 0) (by simp only [kwOr, h0, Option.getD_some]; exact toNoise_zero) (mp := p) h2 hh.u hh.st hh.sh hh.dh
      hh.o hT.base (x := source) (y := dest) rfl rfl, noise1_zero, noise1_zero]
  obtain ⟨_, v, e1, e2⟩ := C63_te_is_cmi source dest l k s hs hl hk hm hlen p hpn kn hkn i hi b hb {} lawful_none
  refine e1.trans (e2.symm.trans ?_)
  rw [srcSel_none]
  rfl

/-- **C91** the same for the conditional transfer entropy: the condition is the destination history next to the history of the
condition. -/
theorem C91_cte_metric_is_cmi (hT : Call W .cte .metric aT kwT b) (hM : Call W .cmi .metric aM kwM b) (hb : b.Valid)
    (hh : History kwT l k s) (hcd : kwOr kwT "cond_hist_len" (.int 1) = .int c) (hp : Plain kwM)
    (h0 : kwT "noise_level" = some (.int 0)) (h0' : kwM "noise_level" = some (.int 0)) (hs : 0 < s) (hl : 0 < l) (hk : 0 < k)
    (hc : 0 < c) (source dest z : List ℝ) (hm : max (max k l) c * s < source.length) (hlen : source.length = dest.length)
    (hlen2 : z.length = dest.length) (p : PNorm) (hpn : p.ok = true) (kn : Nat) (hkn : 0 < kn)
    (i : Int) (hi : i = 1 ∨ i = 2) (h1 : kwOr kwT "k" (.int 4) = .int kn) (h1' : kwOr kwM "k" (.int 4) = .int kn)
    (h2 : (kwOr kwT "minkowski_p" .inf).toPNorm = some p) (h2' : (kwOr kwM "minkowski_p" .inf).toPNorm = some p)
    (h3 : kwOr kwT "ksg_id" (.int 1) = .int i) (h3' : kwOr kwM "ksg_id" (.int 1) = .int i) :
    let m := max (max k l) c
    CteIs W (.reals source) (.reals dest) aT (.reals z) kwT
      (imCMI W [.mat ⟨1, futRows dest dest.length m s⟩, .mat ⟨l, histRows source dest.length m s l⟩] aM
        (.val (.mat ⟨k + c, (List.range (numRows dest.length m s)).map (fun i => histRow dest m s k i ++ histRow z m s c i)⟩)) kwM) := by
  intro m
  have e := (e2e_cmi_metric hM.name (data := [.mat ⟨1, futRows dest dest.length m s⟩,
      .mat ⟨l, histRows source dest.length m s l⟩]) (by simp) hM.accepted (k := kn) (by rw [h1']; simp [PyVal.toNat]) (i := i)
      (by rw [h3']; rfl) (v := 0) (by simp only [kwOr, h0', Option.getD_some]; exact toNoise_zero) (mp := p) h2' (nm := false)
      (by rw [hp.normalize]; rfl) (o := some 0) (by rw [hp.offset]; rfl) hM.base
      (mapM_kvars [.two ⟨1, futRows dest dest.length m s⟩, .two ⟨l, histRows source dest.length m s l⟩])
      (toKVar_ofKVar (.two ⟨k + c, (List.range (numRows dest.length m s)).map (fun i => histRow dest m s k i ++ histRow z m s c i)⟩))).1
  rw [noise2_none, noiseSum_zero] at e
  obtain ⟨_, v, e1, e2⟩ := C63_cte_is_cmi source dest z l k c s hs hl hk hc hm hlen hlen2 p hpn kn hkn i hi b hb
  have e' : imCMI W [.mat ⟨1, futRows dest dest.length m s⟩, .mat ⟨l, histRows source dest.length m s l⟩] aM
        (.val (.mat ⟨k + c, (List.range (numRows dest.length m s)).map (fun i => histRow dest m s k i ++ histRow z m s c i)⟩)) kwM = .ok v :=
    e.trans e2
  rw [e']
  have t := e2e_cte_metric hT.name hT.accepted (k := kn) (by rw [h1]; simp [PyVal.toNat]) (i := i)
      (by rw [h3]; rfl) (v := 0) (by simp only [kwOr, h0, Option.getD_some]; exact toNoise_zero) (mp := p) h2 hh.u hh.st hh.sh hh.dh
      (ch := .int c) (by rw [hcd]; rfl) hh.o hT.base (x := source) (y := dest) (z := z) (dx := .reals source) (dy := .reals dest)
      (dz := .reals z) rfl rfl rfl
  rw [noise1_zero, noise1_zero, noise1_zero] at t
  exact ⟨t.1.trans e1, t.2.trans e1⟩

/-! ## Ordinal patterns -/

/-- **C91** ordinal (tie-free series): `im.mutual_information(x, y)` is
`im.entropy(x) + im.entropy(y) − im.entropy((x, y))`. -/
theorem C91_mi_ordinal (hH : Call W .h .ordinal a kw b) (hM : Call W .mi .ordinal aM kwM b) (hb : b.Std) (hcd : cond.isVal = false)
    (ho : kwOr kwM "offset" (.int 0) = .int 0) (x y : List ℝ) (d s : Nat) (st st' : Bool)
    (h1 : kw "embedding_dim" = some (.int d)) (h1' : kwM "embedding_dim" = some (.int d)) (h2 : kwOr kw "step_size" (.int 1) = .int s)
    (h2' : kwOr kwM "step_size" (.int 1) = .int s) (h3 : kwOr kw "stable" (.bool false) = .bool st)
    (h3' : kwOr kwM "stable" (.bool false) = .bool st') (hd : 1 ≤ d) (hd' : d ≤ 20) (hs : 1 ≤ s) (hxy : x.length = y.length)
    (hn : (d - 1) * s < x.length) (hov : x.length < 2 ^ 32) (htx : TieFree x d s) (hty : TieFree y d s) :
    ∃ hx hy hj, imEntropy W [.reals x] a .absent kw = .ok hx ∧ imEntropy W [.reals y] a .absent kw = .ok hy ∧
      imEntropy W [.tup [.one x, .one y]] a .absent kw = .ok hj ∧
      imMI W [.reals x, .reals y] aM cond kwM = .ok (hx + hy - hj) := by
  refine ⟨_, _, _, C82_ordinal_entropy hH hb.valid x d s st h1 h2 h3 hd hs hn htx,
    C82_ordinal_entropy hH hb.valid y d s st h1 h2 h3 hd hs (hxy ▸ hn) hty,
    C82_joint_ordinal hH hb.valid [x, y] x.length d s st h1 h2 h3 hd hd' hs (by simp) (by simp [hxy]) hn (by simp [htx, hty]), ?_⟩
  rw [C82_mi_ordinal hM hb hcd ho x y d s st' (by rw [kwOr, h1']; rfl) h2' h3' hd hs hxy hn hov htx hty,
    mi_eq_entropies _ _ (by simp [ordPatterns_win, hxy])]
  rw [← add_div, ← sub_div]
  congr 3
  rw [ordPatterns_win, ordPatterns_win, ← hxy, List.zip_map']
  refine entropy_map_congr _ _ _ fun u hu v hv => ?_
  have hu' := List.mem_range.1 hu
  have hv' := List.mem_range.1 hv
  simp [delayVectors_win, ← hxy, List.getD, hu', hv']

/-- **C91** ordinal (tie-free series): `im.conditional_mutual_information(x, y, cond=z)` is
`im.entropy((x, z)) + im.entropy((y, z)) − im.entropy((x, y, z)) − im.entropy(z)`. -/
theorem C91_cmi_ordinal (hH : Call W .h .ordinal a kw b) (hM : Call W .cmi .ordinal aM kwM b) (hb : b.Std)
    (ho : kwOr kwM "offset" (.int 0) = .int 0) (x y z : List ℝ) (d s : Nat) (st st' : Bool)
    (h1 : kw "embedding_dim" = some (.int d)) (h1' : kwM "embedding_dim" = some (.int d)) (h2 : kwOr kw "step_size" (.int 1) = .int s)
    (h2' : kwOr kwM "step_size" (.int 1) = .int s) (h3 : kwOr kw "stable" (.bool false) = .bool st)
    (h3' : kwOr kwM "stable" (.bool false) = .bool st') (hd : 1 ≤ d) (hd' : d ≤ 20) (hs : 1 ≤ s) (hxy : x.length = y.length)
    (hyz : y.length = z.length) (hn : (d - 1) * s < x.length) (hov : x.length < 2 ^ 32) (htx : TieFree x d s) (hty : TieFree y d s)
    (htz : TieFree z d s) :
    ∃ hxz hyz hj hz, imEntropy W [.tup [.one x, .one z]] a .absent kw = .ok hxz ∧ imEntropy W [.tup [.one y, .one z]] a .absent kw = .ok hyz ∧
      imEntropy W [.tup [.one x, .one y, .one z]] a .absent kw = .ok hj ∧ imEntropy W [.reals z] a .absent kw = .ok hz ∧
      CmiIs W [.reals x, .reals y] aM (.reals z) kwM (.ok (hxz + hyz - hj - hz)) := by
  have hxz : x.length = z.length := hxy.trans hyz
  have J := fun cols hne hl ht => C82_joint_ordinal hH hb.valid cols x.length d s st h1 h2 h3 hd hd' hs hne hl hn ht
  have E : ∀ u v : List ℝ, u.length = x.length → v.length = x.length →
      entropy ((ordPatterns u d s).zip (ordPatterns v d s)) = entropy ((List.range (x.length - (d - 1) * s)).map (fun t =>
          [u, v].map (fun c => rankPattern ((delayVectors c d s).getD t [])))) := by
    intro u v hu hv
    rw [ordPatterns_win, ordPatterns_win, hu, hv, List.zip_map']
    refine entropy_map_congr _ _ _ fun i hi j hj => ?_
    have hi' := List.mem_range.1 hi
    have hj' := List.mem_range.1 hj
    simp [delayVectors_win, hu, hv, List.getD, hi', hj']
  refine ⟨_, _, _, _, J [x, z] (by simp) (by simp [hxz]) (by simp [htx, htz]), J [y, z] (by simp) (by simp [hyz, hxz]) (by simp [hty, htz]),
    J [x, y, z] (by simp) (by simp [hxy, hyz]) (by simp [htx, hty, htz]),
    C82_ordinal_entropy hH hb.valid z d s st h1 h2 h3 hd hs (hxz ▸ hn) htz, ?_⟩
  have e := C82_cmi_ordinal hM hb ho x y z d s st' (by rw [kwOr, h1']; rfl) h2' h3' hd hs hxy hyz hn hov htx hty htz
  rw [cmi_eq_entropies _ _ _ (by simp [ordPatterns_win, hxy]) (by simp [ordPatterns_win, hyz]), E x z rfl hxz.symm,
    E y z hxy.symm hxz.symm] at e
  have E3 : entropy ((ordPatterns x d s).zip ((ordPatterns y d s).zip (ordPatterns z d s))) =
      entropy ((List.range (x.length - (d - 1) * s)).map (fun t =>
          [x, y, z].map (fun c => rankPattern ((delayVectors c d s).getD t [])))) := by
    rw [ordPatterns_win, ordPatterns_win, ordPatterns_win, ← hxz, ← hxy, List.zip_map', List.zip_map']
    refine entropy_map_congr _ _ _ fun u hu v hv => ?_
    have hu' := List.mem_range.1 hu
    have hv' := List.mem_range.1 hv
    simp [delayVectors_win, ← hxz, ← hxy, List.getD, hu', hv']
  rw [E3, sub_div, sub_div, add_div] at e
  exact e

end Verif
